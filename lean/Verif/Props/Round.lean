import Verif.Props.SeveralLevels
import Verif.Props.Origin
import Verif.Props.Missing

/-!
C127: what the Gaussian fit changes. The eddies found with it are among those found without it, with the same values apart from those
of the fit. The claim fails for round contours: the angle of a fitted circle is NaN (C32), the initial guess of the fit is then infeasible
and `least_squares` raises `ValueError`.
-/
namespace Trackeddy
open Spec
open Cntr (Vertex)

variable {c : Criteria ℝ} {L : Libs} {S : Fields} {l : ℝ}

/-- the criteria without the Gaussian fit -/
def Criteria.noFit (c : Criteria ℝ) : Criteria ℝ := { c with skipGauss := true }

/-- the values of an eddy that do not come from the Gaussian fit -/
def EddyObj.noFit (e : EddyObj) : EddyObj := { e with gauss := none, gaussError := some 0 }

/-- the reasons that speak of the Gaussian fit -/
def ofFit : Reason → Bool
  | .gaussFailed => true
  | .gaussCheck => true
  | _ => false

/-- what the fit decides about an eddy found without it (trackeddy.py:353-391) -/
noncomputable def fitStep (c : Criteria ℝ) (L : Libs) (S : Fields) (l : ℝ) (e : EddyObj) (i : InContour) : Except PyErr Outcome :=
  open Classical in do
  let surf ← fitSurface L S i e.ellipse
  let gs ← contoursOf L (cut i.window S.X) (cut i.window S.Y) surf.1 l
  if gs = [] then return .discarded .gaussFailed
  let gsim ← match allPoints gs.flatten with
    | some gpts => liftFr (similarity L.limit e.contour gpts)
    | none => .error .valueError
  if ltNan gsim c.gaussFit then return .discarded .gaussCheck
  return .stored { e with gauss := some surf.2, gaussError := gsim }

theorem examinePoints_fit (hc : c.skipGauss = false) (pts : List (ℝ × ℝ)) :
    (∃ (e : EddyObj) (i : InContour), examinePoints c.noFit L S l pts = .ok (.stored e) ∧ e.noFit = e ∧ dataInContour L S e.contour = .ok i ∧
      examinePoints c L S l pts = fitStep c L S l e i) ∨
    examinePoints c L S l pts = examinePoints c.noFit L S l pts ∧ (∀ e, examinePoints c L S l pts ≠ .ok (.stored e)) ∧
      ∀ r, examinePoints c L S l pts = .ok (.discarded r) → ofFit r = false := by
  classical
  have d1 : c.noFit.maxArea = c.maxArea := rfl
  have d2 : c.noFit.ellipseFit = c.ellipseFit := rfl
  have d3 : c.noFit.eccen = c.eccen := rfl
  have d4 : c.noFit.skipGauss = true := rfl
  unfold examinePoints
  simp only [bind, Except.bind, pure, Except.pure, d1, d2, d3, d4, hc, if_true]
  by_cases h1 : Real.sqrt (areaPolygon pts / Real.pi) > c.maxArea * approxRD (meanPt pts).2
  · simp only [h1, if_true]
    right; simp [ofFit]
  simp only [h1, if_false]
  cases hf : fitEllipse pts with
  | error e => right; simp
  | ok fit =>
  simp only
  by_cases hfin : FiniteEllipse pts ∧ isclose (areaPolygon pts) (areaPolygon fit.1) (1 / 10 * c.ellipseFit) = true
  swap
  · simp only [hfin, not_false_eq_true, if_true]
    right; simp [ofFit]
  simp only [hfin, not_true_eq_false, if_false, and_self]
  by_cases h2 : gtNan (eccentricity fit.2.1 fit.2.2.1) c.eccen
  · simp only [h2, if_true]
    right; simp [ofFit]
  simp only [h2, if_false]
  cases hs : liftFr (similarity L.limit pts fit.1) with
  | error e => right; simp
  | ok sim =>
  simp only
  by_cases h3 : gtNan sim c.ellipseFit
  · simp only [h3, if_true]
    right; simp [ofFit]
  simp only [h3, if_false]
  cases hi : dataInContour L S pts with
  | error e => right; simp
  | ok i =>
  simp only
  by_cases h4 : i.ext.maxima = 0
  · simp only [h4, if_true]
    right; simp [ofFit]
  simp only [h4, if_false, Bool.false_eq_true]
  left
  refine ⟨_, i, rfl, rfl, hi, ?_⟩
  unfold fitStep
  simp only [bind, Except.bind, pure, Except.pure]
  cases fitSurface L S i fit.2 with
  | error e => rfl
  | ok surf =>
  simp only
  cases contoursOf L (cut i.window S.X) (cut i.window S.Y) surf.1 l with
  | error e => rfl
  | ok gs =>
  simp only
  by_cases h5 : gs = []
  · simp only [h5, if_true]
  simp only [h5, if_false]
  cases allPoints gs.flatten with
  | none => rfl
  | some gpts =>
    cases liftFr (similarity L.limit pts gpts) <;> rfl

theorem examine_fit (hc : c.skipGauss = false) (vs : List (Vertex ℝ)) :
    (∃ (e : EddyObj) (i : InContour), examine c.noFit L S l vs = .ok (.stored e) ∧ e.noFit = e ∧ dataInContour L S e.contour = .ok i ∧
      examine c L S l vs = fitStep c L S l e i) ∨
    examine c L S l vs = examine c.noFit L S l vs ∧ (∀ e, examine c L S l vs ≠ .ok (.stored e)) ∧
      ∀ r, examine c L S l vs = .ok (.discarded r) → ofFit r = false := by
  unfold examine
  split_ifs with h
  · right; simp
  · cases allPoints vs with
    | none => right; simp [ofFit]
    | some pts => exact examinePoints_fit hc pts

/-- the results of the fit -/
theorem fitStep_cases {e : EddyObj} {i : InContour} {o : Outcome} (h : fitStep c L S l e i = .ok o) :
    (∃ r, o = .discarded r ∧ ofFit r = true) ∨ ∃ e', o = .stored e' ∧ e'.noFit = e.noFit := by
  classical
  unfold fitStep at h
  simp only [bind, Except.bind, pure, Except.pure] at h
  cases h1 : fitSurface L S i e.ellipse with
  | error er => rw [h1] at h; cases h
  | ok surf =>
  rw [h1] at h
  simp only at h
  cases h2 : contoursOf L (cut i.window S.X) (cut i.window S.Y) surf.1 l with
  | error er => rw [h2] at h; cases h
  | ok gs =>
  rw [h2] at h
  simp only at h
  split_ifs at h with h3
  · injection h with h
    exact Or.inl ⟨_, h.symm, rfl⟩
  · cases h5 : allPoints gs.flatten with
    | none => rw [h5] at h; cases h
    | some gpts =>
      rw [h5] at h
      simp only at h
      cases h6 : liftFr (similarity L.limit e.contour gpts) with
      | error er => rw [h6] at h; cases h
      | ok v =>
        rw [h6] at h
        simp only at h
        split_ifs at h with h4
        · injection h with h
          exact Or.inl ⟨_, h.symm, rfl⟩
        · injection h with h
          exact Or.inr ⟨_, h.symm, rfl⟩

/-- the tables of a level -/
theorem detectLevel_tables (h : S.Ok) {x : List (Nat × List Cols) × List (Nat × Reason)} (hx : (detectLevel c L S Regs.empty l).2 = .ok x) :
    x.1 = numbered 0 ((foundIn c L S l).map fun e => tableRows e.data) ∧
    x.2 = numbered 0 ((contourList L S l).filterMap fun vs => match examine c L S l vs with
        | .ok (.discarded r) => some r
        | _ => none) := by
  obtain ⟨-, ess, -, h2⟩ := contourList_lines L h l
  rw [detectLevel_measures h] at hx
  have hok := detectOneLevel_complete hx
  rw [detectOneLevel_ok c _ hok] at hx
  injection hx with hx
  rw [← hx]
  constructor
  · have := accepted_contours (c := c) (L := L) h h2
    rw [← storedOf_eq] at this
    unfold foundIn
    rw [h2, List.filterMap_map]
    show _ = numbered 0 (List.map (fun e => tableRows e.data) (List.filterMap (fun cl => storedEddy c L S l (cl.map (S.grid.point l))) ess))
    rw [← this]
    simp only [Regs.empty, List.nil_append]
    split
    · rename_i h0; rw [h0]; rfl
    · rfl
  · refine Eq.trans ?_ (congrArg (numbered 0) (discardedOf_measures c L S l (contourList L S l)))
    simp only [Regs.empty, List.nil_append]
    unfold levelMeasures
    split
    · rename_i h0; rw [h0]; rfl
    · rfl

/-- **C127** (partial) If a level can be examined with the Gaussian fit, it can be examined without it; the eddies found with the fit are some
of those found without it, in the same order and with the same values apart from those of the fit; all others are discarded for the fit, and
the other discarded contours are the same. Missing for the full claim: that the level can be examined (`C127_refuted`). -/
theorem C127_partial (hc : c.skipGauss = false) (h : S.Ok) {x : List (Nat × List Cols) × List (Nat × Reason)}
    (hx : (detectLevel c L S Regs.empty l).2 = .ok x) :
    ∃ (y : List (Nat × List Cols) × List (Nat × Reason)) (es es' : List EddyObj), (detectLevel c.noFit L S Regs.empty l).2 = .ok y ∧
      Found c L S l es ∧ Found c.noFit L S l es' ∧
      x.1 = numbered 0 (es.map fun e => tableRows e.data) ∧ y.1 = numbered 0 (es'.map fun e => tableRows e.data) ∧
      (es.map EddyObj.noFit).Sublist es' ∧
      y.2.map Prod.snd = (x.2.map Prod.snd).filter (fun r => !ofFit r) ∧
      es'.length = es.length + (x.2.map Prod.snd).countP ofFit := by
  have hall := (detectLevel_total h l Regs.empty).1.1 ⟨_, hx⟩
  have hall' : ∀ vs ∈ contourList L S l, ∃ o, examine c.noFit L S l vs = .ok o := by
    intro vs hvs
    obtain ⟨o, ho⟩ := hall vs hvs
    rcases examine_fit (L := L) (S := S) (l := l) hc vs with ⟨e, i, h1, -⟩ | ⟨h1, -⟩
    · exact ⟨_, h1⟩
    · exact ⟨o, h1 ▸ ho⟩
  obtain ⟨y, hy⟩ := (detectLevel_total (c := c.noFit) h l Regs.empty).1.2 hall'
  obtain ⟨x1, x2⟩ := detectLevel_tables h hx
  obtain ⟨y1, y2⟩ := detectLevel_tables h hy
  have hsnd : ∀ (k : Nat) (rs : List Reason), (numbered k rs).map Prod.snd = rs := by
    intro k rs
    apply List.ext_getElem?
    intro i
    simp [numbered]
  refine ⟨y, foundIn c L S l, foundIn c.noFit L S l, hy, foundIn_found h l, foundIn_found h l, x1, y1, ?_⟩
  rw [x2, y2, hsnd, hsnd]
  clear x1 x2 y1 y2 hx hy
  unfold foundIn
  generalize contourList L S l = cs at hall hall'
  induction cs with
  | nil => simp
  | cons vs cs ih =>
    obtain ⟨i1, i2, i3⟩ := ih (fun v hv => hall v (List.mem_cons_of_mem _ hv)) (fun v hv => hall' v (List.mem_cons_of_mem _ hv))
    obtain ⟨o, ho⟩ := hall vs List.mem_cons_self
    rcases examine_fit (L := L) (S := S) (l := l) hc vs with ⟨e, i, h1, h2, h3, h4⟩ | ⟨h1, h2, h3⟩
    · have s0 : storedEddy c.noFit L S l vs = some e := by unfold storedEddy; rw [h1]
      rcases fitStep_cases (h4.symm.trans ho) with ⟨r, rfl, hr⟩ | ⟨e', rfl, he⟩
      · have s1 : storedEddy c L S l vs = none := by unfold storedEddy; rw [ho]
        simp only [List.filterMap_cons, s0, s1, h1, ho, List.filter_cons, hr, List.countP_cons, List.length_cons, Bool.not_true,
          Bool.false_eq_true, if_false, if_true]
        exact ⟨i1.cons _, i2, by omega⟩
      · have s1 : storedEddy c L S l vs = some e' := by unfold storedEddy; rw [ho]
        simp only [List.filterMap_cons, s0, s1, h1, ho, List.length_cons, List.map_cons, he, h2]
        exact ⟨i1.cons_cons _, i2, by omega⟩
    · have s1 : storedEddy c L S l vs = none := by
        unfold storedEddy
        rw [ho]
        cases o with
        | stored e => exact absurd ho (h2 e)
        | _ => rfl
      have s0 : storedEddy c.noFit L S l vs = none := by
        unfold storedEddy
        rw [← h1]
        exact s1
      simp only [List.filterMap_cons, s0, s1, ← h1]
      cases o with
      | stored e => exact absurd ho (h2 e)
      | skipped =>
        simp only [ho]
        exact ⟨i1, i2, i3⟩
      | discarded r =>
        have hr := h3 r ho
        simp only [ho, List.filter_cons, hr, List.countP_cons, Bool.not_false, if_true, Bool.false_eq_true, if_false, Nat.add_zero]
        exact ⟨i1, by rw [i2], i3⟩

/-- all vertices have the same distance from some point -/
def RoundContour (pts : List (ℝ × ℝ)) : Prop :=
  ∃ (m : ℝ × ℝ) (r : ℝ), 0 < r ∧ ∀ p ∈ pts, (p.1 - m.1) ^ 2 + (p.2 - m.2) ^ 2 = r ^ 2

theorem round_angle {pts curve : List (ℝ × ℝ)} {prm : ℝ × ℝ × Option ℝ} (hr : RoundContour pts) (hf : fitEllipse pts = .ok (curve, prm)) :
    prm.2.2 = none := by
  obtain ⟨m, r, h0, h1⟩ := hr
  have hg : Generic pts := by
    by_contra hn
    rw [fitEllipse_not_generic hn] at hf
    cases hf
  have r2 : 0 < 1 / r ^ 2 := by positivity
  obtain ⟨q, hq, -, -, k, hk, ea, eb, ec⟩ := C31_exact ⟨1 / r ^ 2, 0, 1 / r ^ 2, m, r2, by nlinarith⟩ pts (by
    intro p hp
    have := h1 p hp
    unfold Spec.Ellipse.On form
    simp only
    have : (r ^ 2) ≠ 0 := by positivity
    field_simp
    linarith [h1 p hp]) hg
  unfold fitEllipse at hf
  rw [hq] at hf
  simp only [bind, Except.bind, pure, Except.pure, Except.ok.injEq, Prod.mk.injEq] at hf
  obtain ⟨-, rfl⟩ := hf
  simp only at ea eb ec
  unfold angleOf
  rw [ea, eb, ec]
  simp

/-- an eddy without an angle cannot be fitted -/
theorem examine_no_angle (hc : c.skipGauss = false) {vs : List (Vertex ℝ)} {e : EddyObj} (h : examine c.noFit L S l vs = .ok (.stored e))
    (ha : e.ellipse.2.2 = none) : examine c L S l vs = .error .valueError := by
  rcases examine_fit (L := L) (S := S) (l := l) hc vs with ⟨e', i, h1, -, -, h4⟩ | ⟨h1, h2, -⟩
  · rw [h] at h1
    injection h1 with h1
    injection h1 with h1
    subst h1
    rw [h4]
    unfold fitStep fitSurface
    rw [ha]
    rfl
  · exact absurd (h1.trans h) (h2 e)

theorem found_level (hc : c.skipGauss = false) (h : S.Ok) {e : EddyObj} (he : e ∈ foundIn c.noFit L S l) (ha : e.ellipse.2.2 = none) (regs : Regs Cols) :
    ∃ er, (detectLevel c L S regs l).2 = .error er := by
  obtain ⟨vs, hvs, hst⟩ := List.mem_filterMap.1 he
  have hex : examine c.noFit L S l vs = .ok (.stored e) := by
    unfold storedEddy at hst
    split at hst
    · rename_i e' he'
      injection hst with hst
      subst hst
      exact he'
    · cases hst
  have h1 := examine_no_angle hc hex ha
  cases hd : (detectLevel c L S regs l).2 with
  | error er => exact ⟨er, rfl⟩
  | ok x =>
    obtain ⟨o, ho⟩ := (detectLevel_total h l regs).1.1 ⟨x, hd⟩ vs hvs
    rw [h1] at ho
    cases ho

/-- a run stops at a level that cannot be examined -/
theorem run_stops {Pt : Type} {E : Env Cols ℝ Pt} {field : Int → Fields} {levels : List ℝ} {t0 : Int}
    {tf : Option Int} {T : Nat} {ntimes : Int} {online : Bool} {regs : Regs Cols} (hr : StoreEmpty regs)
    (h : ∀ t ∈ trackTimes t0 tf T, (field t).Ok) {t : Int} (ht : t ∈ trackTimes t0 tf T) {l : ℝ} (hl : l ∈ levels) (hl0 : l ≠ 0)
    (he : ∃ er, (detectLevel c L (field t) Regs.empty l).2 = .error er) :
    ∃ er, (trackFields E c L field levels t0 tf T ntimes online regs).2 = .error er := by
  cases hs : (trackFields E c L field levels t0 tf T ntimes online regs).2 with
  | error er => exact ⟨er, rfl⟩
  | ok s =>
    rw [(trackFields_pure E c L h hr).1] at hs
    obtain ⟨C, hC⟩ := run_snaps_ok _ hs t ht
    obtain ⟨tb, htb⟩ := detectSnapshot_levels hC l hl hl0
    obtain ⟨er, her⟩ := he
    rw [detectLevel_measures (h t ht)] at her
    unfold pureLevel at htb
    rw [her] at htb
    cases htb

/-- a row of a run without the fit belongs to an eddy, all of whose rows are in the table, under the same identifier and time -/
theorem row_chosen {prunes : Bool} {nn : List (ℝ × ℝ) → ℝ × ℝ → Nat} (hnn : IsNN haversine nn) (hc : c.skipGauss = true) {field : Int → Fields}
    {levels : List ℝ} {t0 : Int} {tf : Option Int} {T : Nat} {ntimes : Int} {regs : Regs Cols} (h : ∀ t ∈ trackTimes t0 tf T, (field t).Ok)
    (hr : StoreEmpty regs) {s : LoopState Cols} (hs : (trackFields (colsEnv prunes nn) c L field levels t0 tf T ntimes true regs).2 = .ok s)
    {r : Row (Int × Cols)} (hrow : r ∈ s.table.rows) :
    r.val.1 ∈ trackTimes t0 tf T ∧ ∃ l ∈ levels, l ≠ 0 ∧ ∃ e ∈ foundIn c L (field r.val.1) l, r.val.2 ∈ tableRows e.data ∧
      ∀ row ∈ tableRows e.data, ∃ q ∈ s.table.rows, q.id = r.id ∧ q.val = (r.val.1, row) := by
  obtain ⟨g, hg⟩ := run_selected hnn hc h hr hs
  have hmem := hg.mem_iff.1 hrow
  rw [List.mem_flatMap] at hmem
  obtain ⟨t, ht, hmem⟩ := hmem
  rw [List.mem_flatten] at hmem
  obtain ⟨rows, hrows, hin⟩ := hmem
  obtain ⟨i, hi, hrows'⟩ := List.mem_iff_getElem.1 hrows
  rw [List.getElem_mapIdx] at hrows'
  subst hrows'
  obtain ⟨q, hq, rfl⟩ := List.mem_map.1 hin
  obtain ⟨j, hj, hqj⟩ := List.mem_iff_getElem.1 hq
  unfold eddyRows at hqj hj
  rw [List.getElem_mapIdx] at hqj
  rw [List.length_mapIdx] at hj
  have hi' : i < (select NearEddy ((levels.filter (· ≠ 0)).map (foundIn c L (field t)))).length := by
    rw [List.length_mapIdx] at hi
    exact hi
  obtain ⟨l, hl, hl0, he⟩ := mem_chosen (es := foundIn c L (field t)) (levels := levels) (List.getElem_mem hi')
  refine ⟨ht, l, hl, hl0, _, he, ?_, ?_⟩
  · rw [← hqj]
    exact List.getElem_mem hj
  · intro row hrw
    obtain ⟨k, hk, hkr⟩ := List.mem_iff_getElem.1 hrw
    refine ⟨⟨q.id, k, (t, row)⟩, ?_, rfl, rfl⟩
    rw [hg.mem_iff, List.mem_flatMap]
    refine ⟨t, ht, List.mem_flatten.2 ⟨_, hrows, List.mem_map.2 ⟨⟨q.id, k, row⟩, ?_, rfl⟩⟩⟩
    unfold eddyRows
    rw [List.mem_iff_getElem]
    refine ⟨k, by rw [List.length_mapIdx]; exact hk, ?_⟩
    rw [List.getElem_mapIdx, hkr, ← hqj]

/-- **C127** is false: if the run without the Gaussian fit returns an eddy whose ellipse has no angle (`ellipse_params_theta` is NaN), the run
with the fit raises an exception, whatever `least_squares` answers. -/
theorem C127_refuted_angle {prunes : Bool} {nn : List (ℝ × ℝ) → ℝ × ℝ → Nat} (hnn : IsNN haversine nn) (hc : c.skipGauss = false)
    {field : Int → Fields} {levels : List ℝ} {t0 : Int} {tf : Option Int} {T : Nat} {ntimes : Int} {regs : Regs Cols} (hr : StoreEmpty regs)
    (h : ∀ t ∈ trackTimes t0 tf T, (field t).Ok) {s : LoopState Cols}
    (hs : (trackFields (colsEnv prunes nn) c.noFit L field levels t0 tf T ntimes true regs).2 = .ok s)
    {r : Row (Int × Cols)} (hrow : r ∈ s.table.rows) (ha : ("ellipse_params_theta", none) ∈ r.val.2)
    {Pt : Type} {E : Env Cols ℝ Pt} {ntimes' : Int} {online : Bool} :
    ∃ er, (trackFields E c L field levels t0 tf T ntimes' online regs).2 = .error er := by
  obtain ⟨ht, l, hl, hl0, e, he, hre, -⟩ := row_chosen hnn rfl h hr hs hrow
  refine run_stops hr h ht hl hl0 (found_level hc (h _ ht) he ?_ _)
  obtain ⟨p, -, hp⟩ := List.mem_map.1 hre
  rw [← hp] at ha
  unfold columns at ha
  cases hg : e.data.gauss <;> simp [hg] at ha <;> exact ha.symm

/-- **C127** is false: if the run without the Gaussian fit returns an eddy whose contour points all have the same distance from some point,
the run with the fit raises an exception, whatever `least_squares` answers. -/
theorem C127_refuted_round {prunes : Bool} {nn : List (ℝ × ℝ) → ℝ × ℝ → Nat} (hnn : IsNN haversine nn) (hc : c.skipGauss = false)
    {field : Int → Fields} {levels : List ℝ} {t0 : Int} {tf : Option Int} {T : Nat} {ntimes : Int} {regs : Regs Cols} (hr : StoreEmpty regs)
    (h : ∀ t ∈ trackTimes t0 tf T, (field t).Ok) {s : LoopState Cols}
    (hs : (trackFields (colsEnv prunes nn) c.noFit L field levels t0 tf T ntimes true regs).2 = .ok s)
    {r : Row (Int × Cols)} (hrow : r ∈ s.table.rows) {m : ℝ × ℝ} {d : ℝ} (hd : 0 < d)
    (hround : ∀ q ∈ s.table.rows, q.id = r.id → q.val.1 = r.val.1 → ∃ x y : ℝ, ("contour_path_x", some x) ∈ q.val.2 ∧
      ("contour_path_y", some y) ∈ q.val.2 ∧ (x - m.1) ^ 2 + (y - m.2) ^ 2 = d ^ 2)
    {Pt : Type} {E : Env Cols ℝ Pt} {ntimes' : Int} {online : Bool} :
    ∃ er, (trackFields E c L field levels t0 tf T ntimes' online regs).2 = .error er := by
  obtain ⟨ht, l, hl, hl0, e, he, hre, hall⟩ := row_chosen hnn rfl h hr hs hrow
  refine run_stops hr h ht hl hl0 (found_level hc (h _ ht) he ?_ _)
  obtain ⟨vs, hvs, hst⟩ := List.mem_filterMap.1 he
  obtain ⟨pts, -, -, curve, i, hst⟩ := storedEddy_iff.1 hst
  refine round_angle (pts := pts) ⟨m, d, hd, ?_⟩ hst.fit
  intro p hp
  have hmem : ((columns e.data none (some p.1, some p.2)).filter fun q => q.1 ≠ "identifier") ∈ tableRows e.data := by
    refine List.mem_map.2 ⟨_, ?_, rfl⟩
    show _ ∈ e.data.contour
    unfold EddyObj.data
    simp only [hst.contour]
    exact List.mem_map.2 ⟨p, hp, rfl⟩
  obtain ⟨q, hq, h1, h2⟩ := hall _ hmem
  obtain ⟨x, y, hx, hy, hxy⟩ := hround q hq h1 (by rw [h2])
  rw [h2] at hx hy
  have ex : x = p.1 := by
    unfold columns at hx
    cases hg : e.data.gauss <;> simp [hg] at hx <;> exact hx
  have ey : y = p.2 := by
    unfold columns at hy
    cases hg : e.data.gauss <;> simp [hg] at hy <;> exact hy
  rw [← ex, ← ey]
  exact hxy

end Trackeddy
