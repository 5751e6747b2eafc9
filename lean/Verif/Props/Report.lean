import Verif.Spec.Report
import Verif.Proofs.Detect
import Verif.Props.PipelineExample
import Verif.Props.EddyTable

/-!
C99: the table of discarded contours explains every rejection. C100, C101: the plots of the results.
-/
namespace Trackeddy
open Spec
open Cntr (Vertex)

/-! ### the report refines the outcome -/

theorem reportPoints_outcome (c : Criteria ℝ) (L : Libs) (S : Fields) (level : ℝ) (pts : List (ℝ × ℝ)) :
    (reportPoints c L S level pts).map Report.outcome = examinePoints c L S level pts := by
  classical
  unfold reportPoints examinePoints
  simp only [bind, Except.bind, pure, Except.pure]
  split
  · rfl
  cases hf : fitEllipse pts with
  | error e => rfl
  | ok fit =>
  simp only
  split
  · rfl
  split
  · rfl
  cases hs : liftFr (similarity L.limit pts fit.1) with
  | error e => rfl
  | ok sim =>
  simp only
  split
  · rfl
  cases hd : dataInContour L S pts with
  | error e => rfl
  | ok i =>
  simp only
  split
  · rfl
  split
  · rfl
  cases hsf : fitSurface L S i fit.2 with
  | error e => rfl
  | ok surf =>
  simp only
  cases hg : contoursOf L (cut i.window S.X) (cut i.window S.Y) surf.1 level with
  | error e => rfl
  | ok gs =>
  simp only
  split
  · rfl
  cases hp : allPoints gs.flatten with
  | none => rfl
  | some gpts =>
  simp only
  cases hl : liftFr (similarity L.limit pts gpts) with
  | error e => rfl
  | ok gsim =>
  simp only
  split <;> rfl

theorem report_outcome (c : Criteria ℝ) (L : Libs) (S : Fields) (level : ℝ) (vs : List (Vertex ℝ)) :
    (report c L S level vs).map Report.outcome = examine c L S level vs := by
  unfold report examine
  split
  · rfl
  · cases h : allPoints vs with
    | none => rfl
    | some pts => exact reportPoints_outcome c L S level pts

/-! ### the row -/

/-- the row of a discarded contour -/
def DiscardObj.row (d : DiscardObj) : DRow :=
  [("reason", .str d.reason.name), ("level", .num (some d.level)), ("area_eddy", .num d.area), ("radius_eddy", .num d.radius),
    ("contour_ellipse_error", .num d.ellipseError), ("contour_x", .num (some d.center.1)), ("contour_y", .num (some d.center.2)),
    ("ellipse_eccen", .num d.eccen), ("eddy_sign", .num (some d.sign))] ++
  (match d.maxima with
    | none => [("eddy_maxima", .num (some 0))]
    | some m => [("maxima", .num (some m.1)), ("maxima_y", .num (some m.2.1)), ("maxima_x", .num (some m.2.2))]) ++
  [("contour_gaussian_error", .num d.gaussError)]

theorem discardRow_eq (d : DiscardObj) (id : Nat) : discardRow d id = .ok d.row := by
  have hs : ∀ v : Val, IsScalar (NdArr.scalar v) v := fun v => ⟨rfl, by simp [NdArr.scalar]⟩
  have h := C50_discarded_row (attr := d.attr) (lev := .num (some d.level)) (area := .num d.area) (rad := .num d.radius)
    (ee := .num d.ellipseError) (ecc := .num d.eccen) (cx := .num (some d.center.1)) (cy := .num (some d.center.2))
    (sgn := .num (some d.sign)) (ge := .num d.gaussError) (hs _) (hs _) (hs _) (hs _) ⟨rfl, rfl⟩ (hs _) (hs _)
    (mx := match d.maxima with
      | none => .inl (.num (some 0))
      | some m => .inr (.num (some m.1), .num (some m.2.1), .num (some m.2.2)))
    (by
      obtain ⟨_, _, _, _, _, _, _, _, m, _⟩ := d
      cases m with
      | none => exact hs _
      | some m => exact ⟨rfl, rfl⟩) (hs _) (.str d.reason.name) id
  unfold discardRow
  rw [h]
  simp only [bind, Except.bind, pure, Except.pure, DiscardObj.row]
  obtain ⟨_, _, _, _, _, _, _, _, m, _⟩ := d
  cases m <;> rfl

section
variable (d : DiscardObj)

theorem row_reason : d.row.reason = d.reason.name := rfl
theorem row_level : d.row.num "level" = some d.level := rfl
theorem row_area : d.row.num "area_eddy" = d.area := rfl
theorem row_radius : d.row.num "radius_eddy" = d.radius := rfl
theorem row_ellipse : d.row.num "contour_ellipse_error" = d.ellipseError := rfl
theorem row_x : d.row.num "contour_x" = some d.center.1 := rfl
theorem row_y : d.row.num "contour_y" = some d.center.2 := rfl
theorem row_eccen : d.row.num "ellipse_eccen" = d.eccen := rfl
theorem row_sign : d.row.num "eddy_sign" = some d.sign := rfl
theorem row_maxima : d.row.num "maxima" = d.maxima.map Prod.fst := by
  obtain ⟨_, _, _, _, _, _, _, _, m, _⟩ := d
  cases m <;> rfl
theorem row_gauss : d.row.num "contour_gaussian_error" = d.gaussError := by
  obtain ⟨_, _, _, _, _, _, _, _, m, _⟩ := d
  cases m <;> rfl
end

theorem areaPolygon_nonneg' (pts : List (ℝ × ℝ)) : 0 ≤ areaPolygon pts := by
  unfold areaPolygon
  have := Real.pi_pos
  positivity

/-- the size columns of a contour without missing vertices -/
theorem size_pts {d : DiscardObj} {pts : List (ℝ × ℝ)} (ha : d.area = some (areaPolygon pts))
    (hr : d.radius = some (Real.sqrt (areaPolygon pts / Real.pi))) :
    ∃ r, d.row.num "area_eddy" = some (areaPolygon pts) ∧ d.row.num "radius_eddy" = some r ∧ 0 ≤ r ∧
      Real.pi * r ^ 2 = areaPolygon pts := by
  refine ⟨_, (row_area d).trans ha, (row_radius d).trans hr, Real.sqrt_nonneg _, ?_⟩
  have hp := Real.pi_pos
  rw [Real.sq_sqrt (div_nonneg (areaPolygon_nonneg' pts) hp.le)]
  field_simp

theorem filterMap_some_map (pts : List (ℝ × ℝ)) : (pts.map some).filterMap id = pts := by
  induction pts with
  | nil => rfl
  | cons a l ih => simp [ih]

theorem reportPoints_explained {c : Criteria ℝ} {L : Libs} {S : Fields} {level : ℝ} {pts : List (ℝ × ℝ)} {d : DiscardObj}
    (h : reportPoints c L S level pts = .ok (.discarded d)) : Explained c L S level (pts.map some) d.row := by
  classical
  unfold reportPoints at h
  simp only [bind, Except.bind, pure, Except.pure] at h
  split at h
  · rename_i h1
    injection h with h; injection h with h; subst h
    exact ⟨rfl, by rw [filterMap_some_map]; exact ⟨rfl, rfl⟩, Or.inr ⟨pts, rfl, size_pts rfl rfl⟩,
      Or.inl ⟨rfl, _, _, rfl, rfl, h1⟩⟩
  cases hf : fitEllipse pts with
  | error e => rw [hf] at h; simp at h
  | ok fit =>
  rw [hf] at h
  simp only at h
  split at h
  · rename_i h2
    injection h with h; injection h with h; subst h
    refine ⟨rfl, by rw [filterMap_some_map]; exact ⟨rfl, rfl⟩, Or.inr ⟨pts, rfl, size_pts rfl rfl⟩,
      Or.inr (Or.inl ⟨rfl, Or.inr ⟨pts, rfl, fit.1, fit.2, hf, fun hfin => ?_⟩⟩)⟩
    by_contra hlt
    push Not at hlt
    apply h2
    refine ⟨hfin, ?_⟩
    unfold isclose
    rw [decide_eq_true_eq]
    refine hlt.trans (le_of_eq ?_)
    ring
  split at h
  · rename_i h3
    injection h with h; injection h with h; subst h
    obtain ⟨e, he, hgt⟩ := h3
    exact ⟨rfl, by rw [filterMap_some_map]; exact ⟨rfl, rfl⟩, Or.inr ⟨pts, rfl, size_pts rfl rfl⟩,
      Or.inr (Or.inr (Or.inl ⟨rfl, e, he, hgt⟩))⟩
  cases hs : liftFr (similarity L.limit pts fit.1) with
  | error e => rw [hs] at h; simp at h
  | ok sim =>
  rw [hs] at h
  simp only at h
  split at h
  · rename_i h4
    injection h with h; injection h with h; subst h
    obtain ⟨e, he, hgt⟩ := h4
    exact ⟨rfl, by rw [filterMap_some_map]; exact ⟨rfl, rfl⟩, Or.inr ⟨pts, rfl, size_pts rfl rfl⟩,
      Or.inr (Or.inr (Or.inr (Or.inl ⟨rfl, e, he, hgt⟩)))⟩
  cases hd : dataInContour L S pts with
  | error e => rw [hd] at h; simp at h
  | ok i =>
  rw [hd] at h
  simp only at h
  split at h
  · rename_i h5
    injection h with h; injection h with h; subst h
    exact ⟨rfl, by rw [filterMap_some_map]; exact ⟨rfl, rfl⟩, Or.inr ⟨pts, rfl, size_pts rfl rfl⟩,
      Or.inr (Or.inr (Or.inr (Or.inr (Or.inl ⟨rfl, congrArg some h5⟩))))⟩
  split at h
  · cases h
  cases hsf : fitSurface L S i fit.2 with
  | error e => rw [hsf] at h; simp at h
  | ok surf =>
  rw [hsf] at h
  simp only at h
  cases hg : contoursOf L (cut i.window S.X) (cut i.window S.Y) surf.1 level with
  | error e => rw [hg] at h; simp at h
  | ok gs =>
  rw [hg] at h
  simp only at h
  split at h
  · rename_i h6
    injection h with h; injection h with h; subst h
    subst h6
    exact ⟨rfl, by rw [filterMap_some_map]; exact ⟨rfl, rfl⟩, Or.inr ⟨pts, rfl, size_pts rfl rfl⟩,
      Or.inr (Or.inr (Or.inr (Or.inr (Or.inr (Or.inl ⟨rfl, pts, rfl, fit.1, fit.2, i, surf, hf, hd, hsf, hg⟩)))))⟩
  cases hp : allPoints gs.flatten with
  | none => rw [hp] at h; simp at h
  | some gpts =>
  rw [hp] at h
  simp only at h
  cases hl : liftFr (similarity L.limit pts gpts) with
  | error e => rw [hl] at h; simp at h
  | ok gsim =>
  rw [hl] at h
  simp only at h
  split at h
  · rename_i h7
    injection h with h; injection h with h; subst h
    obtain ⟨e, he, hgt⟩ := h7
    exact ⟨rfl, by rw [filterMap_some_map]; exact ⟨rfl, rfl⟩, Or.inr ⟨pts, rfl, size_pts rfl rfl⟩,
      Or.inr (Or.inr (Or.inr (Or.inr (Or.inr (Or.inr ⟨rfl, e, (row_gauss _).trans he, hgt⟩)))))⟩
  · cases h

theorem none_mem_of_allPoints {vs : List (Vertex ℝ)} (hp : allPoints vs = none) : none ∈ vs := by
  by_contra hn
  have : vs = (vs.filterMap id).map some := by
    clear hp
    induction vs with
    | nil => rfl
    | cons v vs ih =>
      cases v with
      | none => simp at hn
      | some p => simpa using ih (fun h => hn (List.mem_cons_of_mem _ h))
  rw [allPoints_eq.2 this] at hp
  cases hp

theorem report_explained {c : Criteria ℝ} {L : Libs} {S : Fields} {level : ℝ} {vs : List (Vertex ℝ)} {d : DiscardObj}
    (h : report c L S level vs = .ok (.discarded d)) : Explained c L S level vs d.row := by
  unfold report at h
  split at h
  · cases h
  · cases hp : allPoints vs with
    | none =>
      rw [hp] at h
      simp only at h
      injection h with h; injection h with h; subst h
      have hmem := none_mem_of_allPoints hp
      exact ⟨rfl, ⟨rfl, rfl⟩, Or.inl ⟨rfl, rfl, hmem⟩, Or.inr (Or.inl ⟨rfl, Or.inl hmem⟩)⟩
    | some pts =>
      rw [hp] at h
      rw [allPoints_eq.1 hp]
      exact reportPoints_explained h

/-! ### the loop -/

/-- the attributes of the contour if it is discarded -/
def discardOf? : Except PyErr Report → Option DiscardObj
  | .ok (.discarded d) => some d
  | _ => none

theorem reportLoop_ok {f : List (Vertex ℝ) → Except PyErr Report} {cs : List (List (Vertex ℝ))} {r : DRegs}
    {l : Option (List (Nat × DRow))} {x : DRegs × Option (List (Nat × DRow))} (h : reportLoop f cs r l = .ok x) :
    x.1 = ⟨r.calls + (cs.filterMap fun vs => discardOf? (f vs)).length,
      r.table ++ numbered r.calls ((cs.filterMap fun vs => discardOf? (f vs)).map DiscardObj.row)⟩ ∧
    x.2 = if (cs.filterMap fun vs => discardOf? (f vs)) = [] then l else some x.1.table := by
  induction cs generalizing r l with
  | nil =>
    unfold reportLoop at h
    injection h with h
    subst h
    simp [numbered]
  | cons vs cs ih =>
    unfold reportLoop at h
    cases hf : f vs with
    | error e => rw [hf] at h; cases h
    | ok o =>
      rw [hf] at h
      simp only [bind, Except.bind] at h
      cases o with
      | skipped =>
        rw [List.filterMap_cons_none (by rw [hf]; rfl)]
        exact ih h
      | stored e =>
        rw [List.filterMap_cons_none (by rw [hf]; rfl)]
        exact ih h
      | discarded d =>
        simp only [storeDiscarded, discardRow_eq, bind, Except.bind, pure, Except.pure] at h
        obtain ⟨h1, h2⟩ := ih h
        rw [List.filterMap_cons_some (by rw [hf]; rfl)]
        simp only [List.map_cons, List.length_cons, numbered_cons, reduceCtorEq, if_false]
        refine ⟨?_, ?_⟩
        · rw [h1]
          simp only [DRegs.mk.injEq, List.append_assoc, List.singleton_append, and_true]
          omega
        · rw [h2]
          split
          · rename_i h0
            rw [h1, h0]
            simp [numbered]
          · rfl

theorem reportLoop_error {f : List (Vertex ℝ) → Except PyErr Report} {cs : List (List (Vertex ℝ))} (r : DRegs)
    (l : Option (List (Nat × DRow))) (h : ∀ vs ∈ cs, ∃ o, f vs = .ok o) : ∃ x, reportLoop f cs r l = .ok x := by
  induction cs generalizing r l with
  | nil => exact ⟨_, rfl⟩
  | cons vs cs ih =>
    obtain ⟨o, ho⟩ := h vs (by simp)
    have ih := fun r l => ih r l fun v hv => h v (by simp [hv])
    unfold reportLoop
    simp only [ho, bind, Except.bind]
    cases o with
    | skipped => exact ih r l
    | stored e => exact ih r l
    | discarded d =>
      simp only [storeDiscarded, discardRow_eq, bind, Except.bind, pure, Except.pure]
      exact ih _ _

theorem discardsOfLevel_ok {c : Criteria ℝ} {L : Libs} {S : Fields} (hS : S.Ok) {level : ℝ} {t : List (Nat × DRow)}
    (h : discardsOfLevel c L S DRegs.empty level = .ok t) :
    t = numbered 0 (((contourList L S level).filterMap fun vs => discardOf? (report c L S level vs)).map DiscardObj.row) := by
  unfold discardsOfLevel at h
  rw [(contourList_lines L hS level).1] at h
  simp only [bind, Except.bind, pure, Except.pure] at h
  cases hx : reportLoop (report c L S level) (contourList L S level) DRegs.empty none with
  | error e => rw [hx] at h; cases h
  | ok x =>
    rw [hx] at h
    injection h with h
    obtain ⟨h1, h2⟩ := reportLoop_ok hx
    rw [← h, h2]
    split
    · rename_i h0
      rw [h0]
      rfl
    · rw [h1]
      rfl

/-! ### C99 -/

/-- the reason for which a contour is discarded, if it is -/
noncomputable def whyOf (c : Criteria ℝ) (L : Libs) (S : Fields) (level : ℝ) (vs : List (Vertex ℝ)) : Option Reason :=
  match examine c L S level vs with
  | .ok (.discarded r) => some r
  | _ => none

theorem whyOf_some {c : Criteria ℝ} {L : Libs} {S : Fields} {level : ℝ} {vs : List (Vertex ℝ)} {r : Reason} :
    whyOf c L S level vs = some r ↔ examine c L S level vs = .ok (.discarded r) := by
  unfold whyOf
  split <;> rename_i h
  · rw [h]; simp
  · constructor
    · intro h'; cases h'
    · intro h'; exact absurd h' (h r)

theorem whyOf_eq (c : Criteria ℝ) (L : Libs) (S : Fields) (level : ℝ) (vs : List (Vertex ℝ)) :
    whyOf c L S level vs = (discardOf? (report c L S level vs)).map DiscardObj.reason := by
  unfold whyOf
  rw [← report_outcome]
  cases report c L S level vs with
  | error e => rfl
  | ok o => cases o <;> rfl

theorem numbered_map_fst {β : Type} (l : List β) : (numbered 0 l).map Prod.fst = List.range l.length := by
  unfold numbered
  apply List.ext_getElem <;> simp

theorem numbered_map_snd {β : Type} (n : Nat) (l : List β) : (numbered n l).map Prod.snd = l := by
  unfold numbered
  apply List.ext_getElem <;> simp

/-- **C99** The table of discarded contours explains every rejection: detected from empty registers, its rows are numbered from
zero and belong, in order, to exactly those contour lines of the data that are discarded; each names the reason, level and centre
of its line and the number because of which it was discarded. -/
theorem C99_explained {c : Criteria ℝ} {L : Libs} {S : Fields} (hS : S.Ok) {level : ℝ} {t : List (Nat × DRow)}
    (h : discardsOfLevel c L S DRegs.empty level = .ok t) :
    ∃ (lines : List (List Side)) (why : List Side → Option Reason), Contours S.grid level lines ∧
      (∀ cl ∈ lines, ∀ r, why cl = some r ↔ examine c L S level (cl.map (S.grid.point level)) = .ok (.discarded r)) ∧
      t.map Prod.fst = List.range t.length ∧
      List.Forall₂ (fun cl row => (why cl).map Reason.name = some (DRow.reason row) ∧
        Explained c L S level (cl.map (S.grid.point level)) row)
        (lines.filter fun cl => (why cl).isSome) (t.map Prod.snd) := by
  obtain ⟨_, ess, hc, hl⟩ := contourList_lines L hS level
  have ht := discardsOfLevel_ok hS h
  refine ⟨ess, fun cl => whyOf c L S level (cl.map (S.grid.point level)), hc, fun cl _ r => whyOf_some, ?_, ?_⟩
  · rw [ht, numbered_map_fst, numbered_length]
  · rw [ht, numbered_map_snd, hl]
    clear hl hc ht h
    induction ess with
    | nil => exact .nil
    | cons cl ess ih =>
      rw [List.map_cons]
      cases hd : discardOf? (report c L S level (cl.map (S.grid.point level))) with
      | none =>
        rw [List.filterMap_cons_none (f := fun vs => discardOf? (report c L S level vs)) hd, List.filter_cons_of_neg (by simp only [whyOf_eq, hd]; simp)]
        exact ih
      | some d =>
        rw [List.filterMap_cons_some (f := fun vs => discardOf? (report c L S level vs)) hd, List.filter_cons_of_pos (by simp only [whyOf_eq, hd]; rfl), List.map_cons]
        refine .cons ⟨by simp only [whyOf_eq, hd]; rfl, report_explained ?_⟩ ih
        cases hr : report c L S level (cl.map (S.grid.point level)) with
        | error e => rw [hr] at hd; cases hd
        | ok o =>
          rw [hr] at hd
          cases o with
          | discarded d' =>
            simp only [discardOf?, Option.some.injEq] at hd
            rw [hd]
          | skipped => cases hd
          | stored e => cases hd

/-- **C99** whenever the detection of a level succeeds there is such a table, with the numbers and reasons of the contours that
the detection discards -/
theorem C99_agrees {c : Criteria ℝ} {L : Libs} {S : Fields} (hS : S.Ok) {level : ℝ} {eddies : List (Nat × List Cols)}
    {ds : List (Nat × Reason)} (h : (detectLevel c L S Regs.empty level).2 = .ok (eddies, ds)) :
    ∃ t, discardsOfLevel c L S DRegs.empty level = .ok t ∧
      t.map (fun p => (p.1, DRow.reason p.2)) = ds.map fun p => (p.1, p.2.name) := by
  rw [detectLevel_measures hS] at h
  have hok := detectOneLevel_complete h
  have hrep : ∀ vs ∈ contourList L S level, ∃ o, report c L S level vs = .ok o := by
    intro vs hvs
    obtain ⟨v, hv⟩ := hok _ (List.mem_map_of_mem hvs)
    rw [verdict_measures, ← report_outcome] at hv
    cases hr : report c L S level vs with
    | error e => rw [hr] at hv; cases hv
    | ok o => exact ⟨o, rfl⟩
  obtain ⟨x, hx⟩ := reportLoop_error DRegs.empty none hrep
  have hex : ∃ t, discardsOfLevel c L S DRegs.empty level = .ok t := by
    unfold discardsOfLevel
    rw [(contourList_lines L hS level).1]
    simp only [bind, Except.bind, pure, Except.pure, hx]
    exact ⟨_, rfl⟩
  obtain ⟨t, ht⟩ := hex
  refine ⟨t, ht, ?_⟩
  rw [detectOneLevel_ok c _ hok] at h
  injection h with h
  injection h with _ h
  have hds : ds = numbered 0 (discardedOf c (levelMeasures c L S level)) := by
    rw [← h]
    split
    · rename_i h0
      rw [h0]
      rfl
    · simp [Regs.empty]
  have hd : discardedOf c (levelMeasures c L S level) =
      ((contourList L S level).filterMap fun vs => discardOf? (report c L S level vs)).map DiscardObj.reason := by
    unfold discardedOf levelMeasures
    rw [List.filterMap_map, List.map_filterMap]
    apply List.filterMap_congr
    intro vs _
    simp only [Function.comp_apply, verdict_measures, ← report_outcome]
    cases report c L S level vs with
    | error e => rfl
    | ok o => cases o <;> rfl
  rw [discardsOfLevel_ok hS ht, hds, hd]
  unfold numbered
  apply List.ext_getElem
  · simp
  · intro n h1 h2
    simp only [List.getElem_map, List.getElem_mapIdx]
    rfl

/-- the criteria of the example with a smaller eccentricity -/
noncomputable def exStrict : Criteria ℝ := { exCriteria with eccen := 1 / 2 }

/-- a discarded contour: its eccentricity is √(2/3) -/
theorem exDiscarded : ∃ d, report exStrict exLibs exField (1 / 2) (exPts.map some) = .ok (.discarded d) ∧
    d.reason = .eccentricity ∧ d.eccen = some (Real.sqrt (2 / 3)) := by
  have hrd : 0 < approxRD (13 / 14) := by unfold approxRD; positivity
  have hecc : eccentricity 1 (1 / Real.sqrt 3) = some (Real.sqrt (2 / 3)) := by
    have hp : 0 < Real.sqrt 3 := Real.sqrt_pos.2 (by norm_num)
    have hq : |1 / Real.sqrt 3| ^ 2 / |(1 : ℝ)| ^ 2 = 1 / 3 := by
      rw [sq_abs, sq_abs, div_pow, Real.sq_sqrt (by norm_num)]
      norm_num
    unfold eccentricity
    rw [if_neg (by norm_num), hq, if_neg (by norm_num)]
    norm_num
  have hgt : (1 / 2 : ℝ) < Real.sqrt (2 / 3) := by
    rw [Real.lt_sqrt (by norm_num)]
    norm_num
  unfold report
  rw [exSkips, allPoints_eq.2 rfl]
  simp only [Bool.false_eq_true, if_false]
  unfold reportPoints
  have h1 : ¬ Real.sqrt (areaPolygon exPts / Real.pi) > exStrict.maxArea * approxRD (meanPt exPts).2 := by
    rw [exMean]
    show ¬ Real.sqrt (areaPolygon exPts / Real.pi) >
      Real.sqrt (areaPolygon exPts / Real.pi) / approxRD (13 / 14) * approxRD (13 / 14)
    rw [div_mul_cancel₀ _ hrd.ne']
    exact lt_irrefl _
  have h2 : FiniteEllipse exPts ∧
      isclose (areaPolygon exPts) (areaPolygon exCurve) (1 / 10 * exStrict.ellipseFit) = true := by
    refine ⟨exFinite, ?_⟩
    rw [exAreas]
    unfold isclose
    simp only [sub_self, abs_zero, decide_eq_true_eq]
    have : (0 : ℝ) ≤ exStrict.ellipseFit := zero_le_one
    positivity
  have h3 : gtNan (eccentricity 1 (1 / Real.sqrt 3)) exStrict.eccen := ⟨_, hecc, hgt⟩
  simp only [h1, exFit, bind, Except.bind, pure, Except.pure, h2, h3, if_false, if_true, not_true_eq_false, and_self]
  exact ⟨_, rfl, rfl, hecc⟩

example : ∃ t row, discardsOfLevel exStrict exLibs exField DRegs.empty (1 / 2) = .ok t ∧ t = [(0, row)] ∧
    row.reason = "eccentricity" ∧ row.num "ellipse_eccen" = some (Real.sqrt (2 / 3)) ∧
    row.num "contour_x" = some (10 / 7) := by
  obtain ⟨d, hd, h1, h2⟩ := exDiscarded
  obtain ⟨x, hx⟩ := reportLoop_error (f := report exStrict exLibs exField (1 / 2)) DRegs.empty none
    (cs := contourList exLibs exField (1 / 2)) (by
      rw [exField_contours]
      intro vs hvs
      rw [List.mem_singleton] at hvs
      subst hvs
      exact ⟨_, hd⟩)
  have hex : ∃ t, discardsOfLevel exStrict exLibs exField DRegs.empty (1 / 2) = .ok t := by
    unfold discardsOfLevel
    rw [(contourList_lines exLibs exField_ok (1 / 2)).1]
    simp only [bind, Except.bind, pure, Except.pure, hx]
    exact ⟨_, rfl⟩
  obtain ⟨t, ht⟩ := hex
  have h := discardsOfLevel_ok exField_ok ht
  rw [exField_contours, List.filterMap_cons_some (f := fun vs => discardOf? (report exStrict exLibs exField (1 / 2) vs))
    (b := d) (by rw [hd]; rfl)] at h
  refine ⟨t, d.row, ht, h, by rw [row_reason, h1]; rfl, h2, ?_⟩
  have hc := (report_explained hd).centre.1
  rw [filterMap_some_map] at hc
  exact hc.trans (congrArg (fun p : ℝ × ℝ => some p.1) exMean)

/-! ### C100 -/

/-- **C100** every reason has its own entry in the legend, and its marks have the colour of this entry -/
theorem C100_colours (r : Reason) (label : String) : (label, reasonColour r.name) ∈ legend ↔ label = labelOf r := by
  cases r <;> simp [legend, reasonColour, Reason.name, labelOf]

/-- **C100** is false: nothing is plotted if no eddy was found, and nothing if no contour was discarded. -/
theorem C100_refuted : (∀ ds, plotInLevel [] ds = .error .attributeError) ∧
    ∃ eddies : List (Nat × List Cols), eddies ≠ [] ∧ (detectLevel exCriteria exLibs exField Regs.empty (1 / 2)).2 = .ok (eddies, []) ∧
      discardsOfLevel exCriteria exLibs exField DRegs.empty (1 / 2) = .ok [] ∧ plotInLevel eddies [] = .error .typeError := by
  refine ⟨fun _ => rfl, ?_⟩
  obtain ⟨e, he⟩ := exStored
  have hv : verdict exCriteria (measures exCriteria exLibs exField (1 / 2) (exPts.map some)) = .ok .stored := by
    rw [verdict_measures, he]; rfl
  have hm : levelMeasures exCriteria exLibs exField (1 / 2) = [measures exCriteria exLibs exField (1 / 2) (exPts.map some)] := by
    unfold levelMeasures
    rw [exField_contours]
    rfl
  have hst : ∃ x, storedOf exCriteria (levelMeasures exCriteria exLibs exField (1 / 2)) = [x] := by
    rw [hm]
    generalize measures exCriteria exLibs exField (1 / 2) (exPts.map some) = m at hv
    exact ⟨m.row0 :: m.rows, by simp [storedOf, hv]⟩
  have hdi : discardedOf exCriteria (levelMeasures exCriteria exLibs exField (1 / 2)) = [] := by
    rw [hm]
    generalize measures exCriteria exLibs exField (1 / 2) (exPts.map some) = m at hv
    simp [discardedOf, hv]
  obtain ⟨x, hst⟩ := hst
  have hd : (detectLevel exCriteria exLibs exField Regs.empty (1 / 2)).2 = .ok ([(0, x)], []) := by
    rw [detectLevel_measures exField_ok, detectOneLevel_ok exCriteria _ (by
      intro m hm'
      rw [hm, List.mem_singleton] at hm'
      subst hm'
      exact ⟨_, hv⟩), hst, hdi]
    rfl
  have hne : [(0, x)] ≠ [] := by simp
  refine ⟨_, hne, hd, ?_, ?_⟩
  · obtain ⟨t, ht, h⟩ := C99_agrees exField_ok hd
    simp only [List.map_nil, List.map_eq_nil_iff] at h
    rw [ht, h]
  · unfold plotInLevel
    rw [if_neg (by simpa using hne)]
    rfl

/-- **C100** partial: the plot succeeds exactly if there is an eddy and a discarded contour. Then the right panel has for each
discarded contour line, in order, one mark at the mean of its vertices, in the colour that the legend gives for its reason. -/
theorem C100_partial {c : Criteria ℝ} {L : Libs} {S : Fields} (hS : S.Ok) {level : ℝ} {eddies : List (Nat × List Cols)}
    {t : List (Nat × DRow)} (h : discardsOfLevel c L S DRegs.empty level = .ok t) :
    ((∃ x, plotInLevel eddies t = .ok x) ↔ eddies ≠ [] ∧ t ≠ []) ∧
    ∀ left right, plotInLevel eddies t = .ok (left, right) →
      left = (eddies.flatMap fun e => .line (e.2.map fun r => (colNan "contour_path_x" r, colNan "contour_path_y" r)) "m" ::
        e.2.map fun r => .mark (colNan "contour_x" r) (colNan "contour_y" r) "k") ∧
      ∃ (lines : List (List Side)) (why : List Side → Option Reason), Contours S.grid level lines ∧
        (∀ cl ∈ lines, ∀ r, why cl = some r ↔ examine c L S level (cl.map (S.grid.point level)) = .ok (.discarded r)) ∧
        List.Forall₂ (fun cl m => ∃ r colour, why cl = some r ∧ (labelOf r, colour) ∈ legend ∧
          m = Drawn.mark (some (centroid ((cl.map (S.grid.point level)).filterMap id)).1)
            (some (centroid ((cl.map (S.grid.point level)).filterMap id)).2) colour)
          (lines.filter fun cl => (why cl).isSome) right := by
  refine ⟨?_, ?_⟩
  · unfold plotInLevel
    cases eddies <;> cases t <;> simp
  · intro left right hp
    unfold plotInLevel at hp
    split at hp
    · cases hp
    split at hp
    · cases hp
    injection hp with hp
    injection hp with h1 h2
    refine ⟨h1.symm, ?_⟩
    obtain ⟨lines, why, hc, hw, _, hf⟩ := C99_explained hS h
    refine ⟨lines, why, hc, hw, ?_⟩
    have : right = (t.map Prod.snd).map drawDiscarded := by rw [← h2, List.map_map]; rfl
    rw [this, List.forall₂_map_right_iff]
    refine hf.imp ?_
    rintro cl row ⟨hr, hx⟩
    cases hy : why cl with
    | none => rw [hy] at hr; cases hr
    | some r =>
      rw [hy] at hr
      simp only [Option.map_some, Option.some.injEq] at hr
      refine ⟨r, reasonColour r.name, rfl, (C100_colours r _).2 rfl, ?_⟩
      unfold drawDiscarded
      rw [hx.centre.1, hx.centre.2, hr]

/-! ### C101 -/

/-- each eddy of the table has one first row, and all its rows carry the level `lev` of the eddy -/
def LevelOf (T : Tbl Cols) (lev : Nat → ℝ) : Prop :=
  ∀ r ∈ T.rows, colNan "level" r.val = some (lev r.id) ∧ ∃ q, T.rows.filter (fun p => p.id = r.id ∧ p.idx = 0) = [q]

theorem mem_uniques {l : List (Option ℝ)} {x : Option ℝ} : x ∈ uniques l ↔ x ∈ l := by
  classical
  induction l with
  | nil => rfl
  | cons a l ih =>
    simp only [uniques, List.mem_cons, List.mem_filter, ih, decide_eq_true_eq]
    tauto

theorem nodup_uniques (l : List (Option ℝ)) : (uniques l).Nodup := by
  classical
  induction l with
  | nil => exact List.nodup_nil
  | cons a l ih =>
    simp only [uniques, List.nodup_cons, List.mem_filter, decide_eq_true_eq]
    exact ⟨fun h => h.2 rfl, ih.filter _⟩

theorem colourIndex_lt {N n i : Nat} (hN : 0 < N) (hi : i < n) : colourIndex N n i < N := by
  unfold colourIndex
  split
  · exact hN
  · rename_i h
    have : i * (N - 1) / (n - 1) ≤ N - 1 := by
      apply Nat.div_le_of_le_mul
      exact Nat.mul_le_mul_right _ (by omega)
    omega

theorem colourIndex_strict {N n i j : Nat} (hn : n ≤ N) (hij : i < j) (hj : j < n) :
    colourIndex N n i < colourIndex N n j := by
  unfold colourIndex
  rw [if_neg (by omega), if_neg (by omega)]
  have h1 : i * (N - 1) / (n - 1) + 1 ≤ j * (N - 1) / (n - 1) := by
    rw [← Nat.add_div_right _ (by omega : 0 < n - 1)]
    apply Nat.div_le_div_right
    have : (i + 1) * (N - 1) ≤ j * (N - 1) := Nat.mul_le_mul_right _ hij
    rw [Nat.succ_mul] at this
    omega
  omega

/-- the levels of a table, each once -/
noncomputable def levelsOf (T : Tbl Cols) : List (Option ℝ) := uniques (T.rows.map fun r => colNan "level" r.val)

theorem levelPos_eq {T : Tbl Cols} {lev : Nat → ℝ} (h : LevelOf T lev) {r : Row Cols} (hr : r ∈ T.rows) :
    ∃ i, levelPos (levelsOf T) T.rows r.id = .ok i ∧ (levelsOf T)[i]? = some (some (lev r.id)) := by
  classical
  obtain ⟨_, q, hq⟩ := h r hr
  have hqm : q ∈ T.rows ∧ q.id = r.id ∧ q.idx = 0 := by
    have : q ∈ T.rows.filter (fun p => p.id = r.id ∧ p.idx = 0) := by rw [hq]; simp
    simpa using List.mem_filter.1 this
  have hql := (h q hqm.1).1
  rw [hqm.2.1] at hql
  have hmem : some (lev r.id) ∈ levelsOf T := mem_uniques.2 (List.mem_map.2 ⟨q, hqm.1, hql⟩)
  unfold levelPos
  have hq' : (T.rows.filter fun p => decide (p.id = r.id ∧ p.idx = 0)).map (fun r => colNan "level" r.val) =
      [some (lev r.id)] := by
    rw [hq, List.map_cons, hql]
    rfl
  simp only [hq']
  cases hf : ((levelsOf T).map fun m => decide (m ≠ none ∧ m = some (lev r.id))).findIdx? (· = true) with
  | none =>
    exfalso
    rw [List.findIdx?_eq_none_iff] at hf
    have := hf _ (List.mem_map_of_mem hmem)
    simp at this
  | some i =>
    refine ⟨i, rfl, ?_⟩
    rw [List.findIdx?_eq_some_iff_getElem] at hf
    obtain ⟨hlt, h1, _⟩ := hf
    simp only [List.getElem_map, decide_eq_true_eq] at h1
    rw [List.length_map] at hlt
    rw [List.getElem?_eq_getElem hlt, h1.2]

/-- what `plotMultilevel` draws -/
theorem plotMultilevel_eq {T : Tbl Cols} {lev : Nat → ℝ} (h : LevelOf T lev) (hne : T.rows ≠ []) (N : Nat) :
    ∃ pos : ℝ → Nat, (∀ r ∈ T.rows, (levelsOf T)[pos (lev r.id)]? = some (some (lev r.id))) ∧
      plotMultilevel N T = .ok (T.rows.map fun r =>
        Drawn.line (pathOf ((T.rows.filter fun q => q.id = r.id).map Row.val))
          (colourIndex N (levelsOf T).length (pos (lev r.id))),
        if (levelsOf T).length < 5 then (levelsOf T).zipIdx else []) := by
  classical
  refine ⟨fun l => (levelsOf T).idxOf (some l), ?_, ?_⟩
  · intro r hr
    obtain ⟨i, _, hi⟩ := levelPos_eq h hr
    rw [List.getElem?_idxOf (List.mem_of_getElem? hi)]
  · unfold plotMultilevel
    rw [if_neg (by simpa using hne)]
    simp only [bind, Except.bind, pure, Except.pure]
    have hlv : uniques (T.rows.map fun r => colNan "level" r.val) = levelsOf T := rfl
    rw [hlv, mapM_ok (g := fun r => Drawn.line (pathOf ((T.rows.filter fun q => q.id = r.id).map Row.val))
      (colourIndex N (levelsOf T).length ((levelsOf T).idxOf (some (lev r.id)))))]
    intro r hr
    obtain ⟨i, h1, h2⟩ := levelPos_eq h hr
    have : i = (levelsOf T).idxOf (some (lev r.id)) := by
      obtain ⟨hlt, hx⟩ := List.getElem?_eq_some_iff.1 h2
      rw [← hx]
      exact ((nodup_uniques _).idxOf_getElem i hlt).symm
    simp only [h1, this]

/-- **C101** is false: with two to four levels, and at least twice as many colours, the legend shows for the second level a
colour in which no eddy is drawn. Without eddies there is no plot. -/
theorem C101_refuted {T : Tbl Cols} {lev : Nat → ℝ} (h : LevelOf T lev) {N : Nat} (h2 : 2 ≤ (levelsOf T).length)
    (h5 : (levelsOf T).length < 5) (hN : 2 * (levelsOf T).length ≤ N) :
    (∃ lines leg l, plotMultilevel N T = .ok (lines, leg) ∧ (l, 1) ∈ leg ∧ ∀ pts, Drawn.line pts 1 ∉ lines) ∧
    plotMultilevel N ⟨[], []⟩ = .error .attributeError := by
  refine ⟨?_, rfl⟩
  have hne : T.rows ≠ [] := by
    intro h0
    unfold levelsOf at h2
    rw [h0] at h2
    simp [uniques] at h2
  obtain ⟨pos, hpos, he⟩ := plotMultilevel_eq h hne N
  rw [if_pos h5] at he
  refine ⟨_, _, (levelsOf T)[1], he, ?_, ?_⟩
  · rw [List.mem_zipIdx_iff_getElem?]
    exact List.getElem?_eq_getElem (by omega)
  · intro pts hmem
    obtain ⟨r, _, hr⟩ := List.mem_map.1 hmem
    injection hr with _ hc
    unfold colourIndex at hc
    rw [if_neg (by omega)] at hc
    rcases Nat.eq_zero_or_pos (pos (lev r.id)) with h0 | h0
    · rw [h0] at hc
      simp at hc
    · have : 2 ≤ pos (lev r.id) * (N - 1) / ((levelsOf T).length - 1) := by
        rw [Nat.le_div_iff_mul_le (by omega)]
        have : 1 * (N - 1) ≤ pos (lev r.id) * (N - 1) := Nat.mul_le_mul_right _ h0
        omega
      omega

/-- **C101** partial: for a table with eddies the plot succeeds; the contour of each eddy is drawn in a colour of the list, eddies
have the same colour exactly if they have the same level, provided that there are not more levels than colours. With less than
five levels the legend has one entry for each level; that of the level of the first eddy has the colour of its eddies. -/
theorem C101_partial {T : Tbl Cols} {lev : Nat → ℝ} (h : LevelOf T lev) (hne : T.rows ≠ []) {N : Nat}
    (hN : (levelsOf T).length ≤ N) :
    ∃ (colour : ℝ → Nat) (leg : List (Option ℝ × Nat)),
      plotMultilevel N T = .ok (T.rows.map fun r =>
        Drawn.line ((T.rows.filter fun q => q.id = r.id).map fun q =>
          (colNan "contour_path_x" q.val, colNan "contour_path_y" q.val)) (colour (lev r.id)), leg) ∧
      (∀ r ∈ T.rows, colour (lev r.id) < N) ∧
      (∀ r ∈ T.rows, ∀ q ∈ T.rows, colour (lev r.id) = colour (lev q.id) ↔ lev r.id = lev q.id) ∧
      ((levelsOf T).length < 5 → leg.map Prod.fst = levelsOf T ∧
        ∀ r, T.rows.head? = some r → (some (lev r.id), colour (lev r.id)) ∈ leg) := by
  obtain ⟨pos, hpos, he⟩ := plotMultilevel_eq h hne N
  have hlt : ∀ r ∈ T.rows, pos (lev r.id) < (levelsOf T).length := fun r hr =>
    (List.getElem?_eq_some_iff.1 (hpos r hr)).1
  simp only [pathOf, List.map_map] at he
  refine ⟨fun l => colourIndex N (levelsOf T).length (pos l), _, he, ?_, ?_, ?_⟩
  · intro r hr
    have := hlt r hr
    exact colourIndex_lt (by omega) this
  · intro r hr q hq
    refine ⟨fun hc => ?_, fun hl => by rw [hl]⟩
    have hp : pos (lev r.id) = pos (lev q.id) := by
      rcases lt_trichotomy (pos (lev r.id)) (pos (lev q.id)) with hlt' | heq | hgt
      · exact absurd hc (colourIndex_strict hN hlt' (hlt q hq)).ne
      · exact heq
      · exact absurd hc (colourIndex_strict hN hgt (hlt r hr)).ne'
    have h1 := hpos r hr
    rw [hp, hpos q hq] at h1
    simp only [Option.some.injEq] at h1
    exact h1.symm
  · intro h5
    rw [if_pos h5]
    refine ⟨by simp, ?_⟩
    intro r hr
    have hrm : r ∈ T.rows := List.mem_of_head? hr
    have h0 : (levelsOf T)[0]? = some (some (lev r.id)) := by
      unfold levelsOf
      cases hT : T.rows with
      | nil => exact absurd hT hne
      | cons a l =>
        rw [hT, List.head?_cons, Option.some.injEq] at hr
        subst hr
        rw [List.map_cons]
        simp only [uniques, List.getElem?_cons_zero]
        rw [(h a hrm).1]
    have hp : pos (lev r.id) = 0 := by
      have h1 := hpos r hrm
      exact ((List.getElem?_inj (l := levelsOf T) (lt_of_le_of_lt (Nat.zero_le _) (hlt r hrm)) (nodup_uniques _)).1
        (h0.trans h1.symm)).symm
    rw [List.mem_zipIdx_iff_getElem?]
    simp only [hp]
    have : colourIndex N (levelsOf T).length 0 = 0 := by unfold colourIndex; split <;> simp
    rw [this]
    exact h0

/-- two eddies of different levels -/
noncomputable def exTwoLevels : Tbl Cols :=
  ⟨[0, 1], [⟨0, 0, [("level", some 1), ("contour_path_x", some 5)]⟩, ⟨0, 1, [("level", some 1)]⟩, ⟨1, 0, [("level", some 2)]⟩]⟩

theorem exTwoLevels_ok : LevelOf exTwoLevels (fun i => i + 1) ∧ (levelsOf exTwoLevels).length = 2 := by
  constructor
  · intro r hr
    simp only [exTwoLevels, List.mem_cons, List.not_mem_nil, or_false] at hr
    rcases hr with rfl | rfl | rfl
    · exact ⟨by simp [colNan], _, rfl⟩
    · exact ⟨by simp [colNan], _, rfl⟩
    · refine ⟨by simp [colNan]; norm_num, _, rfl⟩
  · simp [levelsOf, exTwoLevels, colNan, uniques]

/-- the hypotheses of `C101_refuted` and `C101_partial`, with the 949 named colours -/
example : ∃ T lev, LevelOf T lev ∧ T.rows ≠ [] ∧ 2 ≤ (levelsOf T).length ∧ (levelsOf T).length < 5 ∧
    2 * (levelsOf T).length ≤ 949 :=
  ⟨exTwoLevels, _, exTwoLevels_ok.1, by simp [exTwoLevels], by rw [exTwoLevels_ok.2], by rw [exTwoLevels_ok.2]; norm_num,
    by rw [exTwoLevels_ok.2]; norm_num⟩


end Trackeddy
