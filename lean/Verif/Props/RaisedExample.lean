import Verif.Props.FromData
import Verif.Props.LevelsExample
import Verif.Props.Robust

/-!
C20 from maps on: a level that raises leaves the eddies it had stored in the register (trackeddy/decorators.py:6-38, 71-88), and the
next call returns them among its own. The map is the one of Props/LevelsExample.lean with a high value in one corner: the line around
the corner has two vertices, through which no ellipse can be fitted.
-/
namespace Trackeddy
open Spec
open Cntr (Vertex)

def rsqZ : Cntr.NdArr (Option ℚ) :=
  ⟨3, 4, fun r c => if r < 3 ∧ c < 4 then some (if (r = 1 ∧ (c = 1 ∨ c = 2)) ∨ (r = 2 ∧ c = 3) then 1 else 0) else none⟩

/-- the map with the corner -/
noncomputable def rsField : Fields :=
  ⟨lvField.X, lvField.Y,
    ⟨3, 4, fun r c => if r < 3 ∧ c < 4 then some (if (r = 1 ∧ (c = 1 ∨ c = 2)) ∨ (r = 2 ∧ c = 3) then 1 else 0) else none⟩⟩

theorem rsField_ok : rsField.Ok := ⟨rfl, rfl, fun M hM => by cases hM⟩

theorem rsField_rect : rsField.Rectilinear := lvField_rect

/-- the line around the corner -/
noncomputable def rsCorner : List (ℝ × ℝ) := [(3 / 2, 3 / 4), (5 / 4, 1)]

theorem rsq_quarter : Cntr.extractContours lvqX lvqY rsqZ (3 / 4) 50 Cntr.exMem =
    .ok ([[some (-1 / 2, -1 / 4), some (1 / 2, -1 / 4), some (3 / 4, 0), some (1 / 2, 1 / 4), some (-1 / 2, 1 / 4), some (-3 / 4, 0),
      some (-1 / 2, -1 / 4)], [some (3 / 2, 3 / 4), some (5 / 4, 1)]].map .points, [.codes [1, 2, 2, 2, 2, 2, 2], .codes [1, 2]]) := by
  decide +kernel

theorem rsField_contours (L : Libs) : contourList L rsField (3 / 4) = [(lvPts (1 / 4)).map some, rsCorner.map some] := by
  obtain ⟨hX, hY, -⟩ := lvField_cast
  have hZ : rsqZ.castO (Rat.castHom ℝ) = rsField.data := by
    unfold Cntr.NdArr.castO rsqZ rsField
    simp only [Cntr.NdArr.mk.injEq, true_and]
    funext r c
    split_ifs <;> simp
  have hd : 4 * (rsField.data.cols * rsField.data.rows) + 2 = 4 * (4 * 3) + 2 := rfl
  obtain ⟨cds, h⟩ := Cntr.extract_cast (Rat.castHom ℝ) Rat.cast_strictMono (X := lvqX) (Y := lvqY) (Z := rsqZ)
    (mem' := L.mem rsField.data (3 / 4)) (fuel' := 4 * (4 * 3) + 2)
    ⟨rfl, rfl, fun M hM => by cases hM⟩ (3 / 4) (by decide) (by decide) rsq_quarter
  have hl : Rat.castHom ℝ (3 / 4) = 3 / 4 := by norm_num
  rw [hX, hY, hZ, hl] at h
  unfold contourList contoursOf
  have h' : Cntr.extractContours rsField.X rsField.Y rsField.data (3 / 4) (4 * (4 * 3) + 2) (L.mem rsField.data (3 / 4)) = _ := h
  rw [hd, h']
  simp only [vertsOf, lvPts, rsCorner, List.map_cons, List.map_nil, Option.map_some, List.filterMap_cons, List.filterMap_nil]
  norm_num

theorem rsData : ∃ e : Extremum ℝ, e.maxima ≠ 0 ∧ dataInContour lvLibs rsField (lvPts (1 / 4)) = .ok ⟨exWindow, e⟩ := by
  have s0 : (0 : ℝ) < 1 / 4 := by norm_num
  have s1 : (1 / 4 : ℝ) < 1 / 2 := by norm_num
  have hin : ∀ p : Int × Int, p = (1, 1) ∨ p = (1, 2) → p ∈ fillHoles 3 4 exWindow.rel.toFinset := by
    intro p hp
    rw [C41_inside_iff]
    rcases hp with rfl | rfl
    · exact ⟨by unfold InWindow; decide, Or.inl (by decide)⟩
    · exact ⟨by unfold InWindow; decide, Or.inl (by decide)⟩
  obtain ⟨e, he⟩ := (C42_defined 3 4 (cut exWindow rsField.data).get
    fun r c => decide (((r : Int), (c : Int)) ∈ fillHoles 3 4 exWindow.rel.toFinset)).1.2
      ⟨1, 1, 1, by norm_num, by norm_num, by simpa using hin (1, 1) (Or.inl rfl), by simp [cut, exWindow, rsField]⟩
  refine ⟨e, ?_, ?_⟩
  · obtain ⟨x, h1, h2, _⟩ := C42_extremum _ _ _ _ e he
    have hpos : 0 < total 3 4 (cut exWindow rsField.data).get
        fun r c => decide (((r : Int), (c : Int)) ∈ fillHoles 3 4 exWindow.rel.toFinset) := by
      have hnn : ∀ r c x, (cut exWindow rsField.data).get r c = some x → 0 ≤ x := by
        intro r c x hx
        simp only [cut, rsField] at hx
        split_ifs at hx <;> simp at hx <;> subst hx <;> norm_num
      unfold total
      refine Finset.sum_pos' (fun r _ => Finset.sum_nonneg fun c _ => ?_) ⟨1, by simp, Finset.sum_pos' (fun c _ => ?_) ⟨1, by simp, ?_⟩⟩
      · split
        · exact le_rfl
        · rename_i x hx
          split
          · exact hnn r c x hx
          · exact le_rfl
      · split
        · exact le_rfl
        · rename_i x hx
          split
          · exact hnn 1 c x hx
          · exact le_rfl
      · have : (((1 : Nat) : Int), ((1 : Nat) : Int)) ∈ fillHoles 3 4 exWindow.rel.toFinset := hin (1, 1) (Or.inl rfl)
        simp only [this]
        simp [cut, rsField, exWindow]
    obtain ⟨_, h3, h4, _⟩ := h2 hpos
    rw [h3]
    exact ne_of_gt h4
  · unfold dataInContour
    have hm : masked rsField.data.rows rsField.data.cols ((⟨rsField.data.rows, rsField.data.cols, rsField.X.get,
        rsField.Y.get⟩ : Grid ℝ).mask (meanPt (lvPts (1 / 4)))) ≠ [] := by
      rw [lvMean]
      show masked 3 4 (lvGrid.mask (-(1 / 14), -(1 / 4 / 7))) ≠ []
      rw [lvMasked s0 s1]
      simp
    have hmap : ((lvPts (1 / 4)).mapM fun v => codeIndex rsField.data.rows rsField.data.cols ((⟨rsField.data.rows, rsField.data.cols,
        rsField.X.get, rsField.Y.get⟩ : Grid ℝ).mask (meanPt (lvPts (1 / 4)))) (lvLibs.ballTree ⟨rsField.data.rows, rsField.data.cols,
        rsField.X.get, rsField.Y.get⟩ (meanPt (lvPts (1 / 4))) v)) = .ok [(1, 1), (1, 2), (1, 2), (1, 2), (1, 1), (1, 1), (1, 1)] := by
      rw [mapM_ok (g := fun v : ℝ × ℝ => if v.1 < 0 then ((1 : Nat), (1 : Nat)) else (1, 2))]
      · unfold lvPts
        norm_num
      · intro v hv
        rw [lvMean]
        exact lvCode s0 s1 v hv
    simp only [hm, if_false, bind, Except.bind, pure, Except.pure, hmap]
    simp only [List.map_cons, List.map_nil]
    have hw : getWindow rsField.data.rows rsField.data.cols (((1 : Nat) : Int), ((1 : Nat) : Int))
        [(((1 : Nat) : Int), ((2 : Nat) : Int)), (((1 : Nat) : Int), ((2 : Nat) : Int)), (((1 : Nat) : Int), ((2 : Nat) : Int)),
        (((1 : Nat) : Int), ((1 : Nat) : Int)), (((1 : Nat) : Int), ((1 : Nat) : Int)), (((1 : Nat) : Int), ((1 : Nat) : Int))] .auto =
        exWindow := exGetWindow
    rw [hw, if_pos (by decide)]
    have he' : maskDataInContour (cut exWindow rsField.data).rows (cut exWindow rsField.data).cols exWindow.rel.toFinset
      (cut exWindow rsField.data).get = .ok e := he
    rw [he']

/-- criteria met by the hexagon, and by the size of the line around the corner -/
noncomputable def rsCriteria : Criteria ℝ :=
  { lvCriteria with maxArea := lvCriteria.maxArea + Real.sqrt (areaPolygon rsCorner / Real.pi) / approxRD (meanPt rsCorner).2 }

theorem rsCriteria_large {x : ℝ} {y : ℝ} (h : x ≤ lvCriteria.maxArea * approxRD y) : x ≤ rsCriteria.maxArea * approxRD y := by
  have hrd : ∀ x, 0 < approxRD x := by intro x; unfold approxRD; positivity
  have h1 : 0 ≤ Real.sqrt (areaPolygon rsCorner / Real.pi) / approxRD (meanPt rsCorner).2 :=
    div_nonneg (Real.sqrt_nonneg _) (hrd _).le
  refine h.trans (mul_le_mul_of_nonneg_right ?_ (hrd y).le)
  show _ ≤ _ + _
  linarith

theorem rsCorner_raises (L : Libs) : examine rsCriteria L rsField (3 / 4) (rsCorner.map some) = .error .linAlgError := by
  have hskip : Cntr.skipsContour (rsCorner.map some) = false := by
    unfold rsCorner
    simp only [Cntr.skipsContour, Cntr.meanOf, Cntr.closeNan, List.map_cons, List.map_nil]
    norm_num [abs_of_pos]
  have hsize : ¬ TooLarge rsCriteria rsCorner := by
    have hrd : 0 < approxRD (meanPt rsCorner).2 := by unfold approxRD; positivity
    unfold TooLarge
    rw [not_lt, ← div_le_iff₀ hrd]
    have : 0 ≤ lvCriteria.maxArea := by
      have h := (lvCriteria_ok (s := 1 / 4) (Or.inl rfl)).1
      have h1 := (Real.sqrt_nonneg _).trans h
      exact nonneg_of_mul_nonneg_left h1 (by unfold approxRD; positivity)
    show _ ≤ _ + _
    linarith
  have hgen : ¬ Generic rsCorner :=
    collinear_not_generic (by simp [rsCorner]) (α := 1) (β := 1) (γ := 9 / 4) (Or.inl one_ne_zero) (by simp [rsCorner]; norm_num)
  unfold examine
  simp only [hskip, Bool.false_eq_true, if_false, allPoints_eq.2 rfl, examinePoints_singular hsize hgen]

theorem rsStored {S : Fields} {x : Extremum ℝ} (hx : dataInContour lvLibs S (lvPts (1 / 4)) = .ok ⟨exWindow, x⟩) (hx0 : x.maxima ≠ 0) :
    ∃ e : EddyObj, examine rsCriteria lvLibs S (3 / 4) ((lvPts (1 / 4)).map some) = .ok (.stored e) := by
  set s : ℝ := 1 / 4 with hs
  have s0 : 0 < s := by norm_num [hs]
  have s1 : s < 1 / 2 := by norm_num [hs]
  obtain ⟨v, hv⟩ := lvSim s
  obtain ⟨c1, c2, c3⟩ := lvCriteria_ok (s := s) (Or.inl rfl)
  refine ⟨⟨lvPts s, 3 / 4, areaPolygon (lvPts s), Real.sqrt (areaPolygon (lvPts s) / Real.pi),
    (max (1 / 2 + s) (lvQ s), min (1 / 2 + s) (lvQ s), angleOf (lvConic s)), v,
    eccentricity (max (1 / 2 + s) (lvQ s)) (min (1 / 2 + s) (lvQ s)), meanPt (lvPts s), x.sign, maximaOf S ⟨exWindow, x⟩, none, some 0⟩, ?_⟩
  rw [examine_stored]
  refine ⟨lvSkips s0 s1, rfl, lvCurve s, ⟨exWindow, x⟩, ?_⟩
  refine ⟨rfl, rfl, rfl, rfl, rfl, ?_, lvFit s0, lvFinite s0, c2, rfl, ?_, ?_, ?_, hx, rfl, rfl, hx0, Or.inl ⟨rfl, rfl, rfl⟩⟩
  · rw [lvMean]
    exact rsCriteria_large c1
  · rintro ⟨u, hu, h1⟩
    simp only at hu
    unfold eccentricity at hu
    split at hu
    · cases hu
    · split at hu
      · cases hu
      · injection hu with hu
        have h2 : u ≤ 1 := by
          rw [← hu]
          apply Real.sqrt_le_one.2
          have : 0 ≤ |min (1 / 2 + s) (lvQ s)| ^ 2 / |max (1 / 2 + s) (lvQ s)| ^ 2 := by positivity
          linarith
        exact absurd h1 (not_lt.2 h2)
  · show liftFr (similarity 100 (lvPts s) (lvCurve s)) = .ok v
    rw [hv]
    rfl
  · rintro ⟨u, hu, h1⟩
    simp only at hu
    subst hu
    have h2 := (similarity_unit hv).2
    have h3 : rsCriteria.ellipseFit = lvCriteria.ellipseFit := rfl
    rw [h3] at h1
    linarith

/-- what the two calls do with the registers they find -/
theorem rsCalls : ∃ rows' rows : List Cols, rows' ≠ [] ∧ rows ≠ [] ∧ ∀ r : Regs Cols,
    detectLevel rsCriteria lvLibs rsField r (3 / 4) =
      (⟨r.sCalls + 1, r.sTable ++ [(r.sCalls, rows')], r.dCalls, r.dTable⟩, .error .linAlgError) ∧
    detectLevel rsCriteria lvLibs lvField r (3 / 4) = (Regs.empty, .ok (r.sTable ++ [(r.sCalls, rows)], [])) := by
  obtain ⟨x', hx0', hx'⟩ := rsData
  obtain ⟨x, hx0, hx⟩ := lvData
  obtain ⟨e', he'⟩ := rsStored hx' hx0'
  obtain ⟨e, he⟩ := rsStored (hx (1 / 4) (by norm_num) (by norm_num)) hx0
  set m' := measures rsCriteria lvLibs rsField (3 / 4) ((lvPts (1 / 4)).map some) with hm'
  set b := measures rsCriteria lvLibs rsField (3 / 4) (rsCorner.map some) with hb
  set m := measures rsCriteria lvLibs lvField (3 / 4) ((lvPts (1 / 4)).map some) with hm
  have hv' : verdict rsCriteria m' = .ok .stored := by rw [hm', verdict_measures, he']; rfl
  have hvb : verdict rsCriteria b = .error .linAlgError := by rw [hb, verdict_measures, rsCorner_raises]; rfl
  have hv : verdict rsCriteria m = .ok .stored := by rw [hm, verdict_measures, he]; rfl
  have hl' : levelMeasures rsCriteria lvLibs rsField (3 / 4) = [m', b] := by
    unfold levelMeasures
    rw [rsField_contours lvLibs]
    rfl
  have hl : levelMeasures rsCriteria lvLibs lvField (3 / 4) = [m] := by
    unfold levelMeasures
    rw [(lvField_contours lvLibs).1]
    rfl
  refine ⟨m'.row0 :: m'.rows, m.row0 :: m.rows, by simp, by simp, fun r => ⟨?_, ?_⟩⟩
  · rw [detectLevel_measures rsField_ok, hl']
    simp only [detectOneLevel, contourLoop, contourStep, hv', hvb]
  · rw [detectLevel_measures lvField_ok, hl]
    simp only [detectOneLevel, contourLoop, contourStep, hv, Option.getD_none]

theorem numbered_snoc {β : Type} (n : Nat) (x a : β) : numbered 0 (List.replicate n x) ++ [(n, a)] = numbered 0 (List.replicate n x ++ [a]) := by
  simp [numbered, List.mapIdx_append]

/-- **C20** is false, from maps on: the second map has a single contour line at the level and, in a fresh session, a single eddy. After
`n` calls on the first map, each of which raises, the call on the second map returns `n + 1` eddies. -/
theorem C20_refuted_from_data : ∃ k' k : LevelCall, k'.data.Ok ∧ k'.data.Rectilinear ∧ k.data.Ok ∧ k.data.Rectilinear ∧
    k'.crit = k.crit ∧ k'.level = k.level ∧ k'.libs = k.libs ∧ k.libs.Nearest ∧
    (∃ line, Contours k.data.grid k.level [line]) ∧
    ∃ rows' rows : List Cols, rows' ≠ [] ∧ rows ≠ [] ∧
      ∀ n, (k'.run (afterCalls (List.replicate n k'))).2 = .error .linAlgError ∧
        (k.run (afterCalls (List.replicate n k'))).2 = .ok (numbered 0 (List.replicate n rows' ++ [rows]), []) := by
  refine ⟨⟨rsCriteria, lvLibs, rsField, 3 / 4⟩, ⟨rsCriteria, lvLibs, lvField, 3 / 4⟩, rsField_ok, rsField_rect, lvField_ok, lvField_rect,
    rfl, rfl, rfl, lvLibs_nearest, ?_, ?_⟩
  · obtain ⟨-, ess, h1, h2⟩ := contourList_lines lvLibs lvField_ok (3 / 4)
    rw [(lvField_contours lvLibs).1] at h2
    have h3 := congrArg List.length h2
    rw [List.length_map] at h3
    obtain ⟨es, rfl⟩ := List.length_eq_one_iff.1 h3.symm
    exact ⟨es, h1⟩
  obtain ⟨rows', rows, h1, h2, hcall⟩ := rsCalls
  refine ⟨rows', rows, h1, h2, ?_⟩
  set k' : LevelCall := ⟨rsCriteria, lvLibs, rsField, 3 / 4⟩ with hk'
  have hrun' : ∀ r, k'.run r = (⟨r.sCalls + 1, r.sTable ++ [(r.sCalls, rows')], r.dCalls, r.dTable⟩, .error .linAlgError) :=
    fun r => (hcall r).1
  have hreg : ∀ n, (afterCalls (List.replicate n k')).sCalls = n ∧
      (afterCalls (List.replicate n k')).sTable = numbered 0 (List.replicate n rows') := by
    intro n
    induction n with
    | zero => exact ⟨rfl, rfl⟩
    | succ n ih =>
      have e : afterCalls (List.replicate (n + 1) k') = (k'.run (afterCalls (List.replicate n k'))).1 := by
        unfold afterCalls
        rw [List.replicate_succ', List.foldl_append]
        rfl
      rw [e, hrun']
      simp only [ih.1, ih.2, numbered_snoc, List.replicate_succ']
      exact ⟨trivial, trivial⟩
  intro n
  refine ⟨by rw [hrun'], ?_⟩
  show (detectLevel rsCriteria lvLibs lvField _ (3 / 4)).2 = _
  rw [(hcall _).2, (hreg n).1, (hreg n).2, numbered_snoc]

/-- **C20** is false for whole runs: `n` runs over the first map raise, whether or not they track online, and a run over the second map in
the same session returns eddies with the identifiers 0 to `n`, of which it would return one in a fresh session. -/
theorem C20_refuted_runs : ∃ (c : Criteria ℝ) (L : Libs) (S' S : Fields) (l : ℝ), S'.Ok ∧ S'.Rectilinear ∧ S.Ok ∧ S.Rectilinear ∧ L.Nearest ∧
    ∀ {Pt : Type} (E : Env Cols ℝ Pt) (T : Nat) (ntimes : Int) (online : Bool) (n : Nat),
      let failed := fun r => trackFields E c L (fun _ => S') [l] 0 (some 1) T ntimes online r
      let session := (fun r => (failed r).1)^[n] Regs.empty
      (failed session).2 = .error .linAlgError ∧
      ∃ s : LoopState Cols, (trackFields E c L (fun _ => S) [l] 0 (some 1) T ntimes online session).2 = .ok s ∧
        ∀ i, (∃ r ∈ s.table.rows, r.id = i) ↔ i ≤ n := by
  refine ⟨rsCriteria, lvLibs, rsField, lvField, 3 / 4, rsField_ok, rsField_rect, lvField_ok, lvField_rect, lvLibs_nearest, ?_⟩
  intro Pt E T ntimes online n failed session
  obtain ⟨rows', rows, h1, h2, hcall⟩ := rsCalls
  have hl : ([3 / 4] : List ℝ).filter (· ≠ 0) = [3 / 4] := by norm_num
  have ht : trackTimes 0 (some 1) T = [0] := by
    have : trackTimes 0 (some 1) T = irange 0 1 := by simp [trackTimes]
    rw [this]
    decide
  have hfail : ∀ r, failed r = (⟨r.sCalls + 1, r.sTable ++ [(r.sCalls, rows')], r.dCalls, r.dTable⟩, .error .linAlgError) := by
    intro r
    simp only [failed]
    unfold trackFields snapshotOf
    rw [ht, hl]
    simp only [List.foldl_cons, List.foldl_nil, (hcall r).1]
    rfl
  have hreg : ∀ n, ((fun r => (failed r).1)^[n] Regs.empty).sCalls = n ∧
      ((fun r => (failed r).1)^[n] Regs.empty).sTable = numbered 0 (List.replicate n rows') := by
    intro n
    induction n with
    | zero => exact ⟨rfl, rfl⟩
    | succ n ih =>
      rw [Function.iterate_succ_apply', hfail]
      simp only [ih.1, ih.2, numbered_snoc, List.replicate_succ']
      exact ⟨trivial, trivial⟩
  refine ⟨by rw [hfail], ?_⟩
  set t := numbered 0 (List.replicate n rows' ++ [rows]) with hdef
  have hmem : ∀ i, (∃ r ∈ (levelFrame t).rows, r.id = i) ↔ i ≤ n := by
    intro i
    have hget : ∀ (i : Nat) (x : List Cols), (i, x) ∈ t ↔ (List.replicate n rows' ++ [rows])[i]? = some x := by
      intro i x
      rw [hdef]
      unfold numbered
      rw [List.mem_mapIdx]
      constructor
      · rintro ⟨j, hj, h⟩
        simp only [zero_add, Prod.mk.injEq] at h
        rw [← h.1, ← h.2]
        exact List.getElem?_eq_getElem hj
      · intro h
        obtain ⟨hj, h⟩ := List.getElem?_eq_some_iff.1 h
        exact ⟨i, hj, by rw [zero_add, h]⟩
    have hlen : (List.replicate n rows' ++ [rows]).length = n + 1 := by simp
    show (∃ r ∈ t.flatMap fun e => e.2.mapIdx fun j v => (⟨e.1, j, v⟩ : Row Cols), r.id = i) ↔ i ≤ n
    constructor
    · rintro ⟨r, hr, rfl⟩
      obtain ⟨⟨j, x⟩, hx, hr⟩ := List.mem_flatMap.1 hr
      obtain ⟨q, hq, rfl⟩ := List.mem_mapIdx.1 hr
      have := (List.getElem?_eq_some_iff.1 ((hget j x).1 hx)).1
      simp only
      omega
    · intro hi
      obtain ⟨x, hx⟩ : ∃ x, (List.replicate n rows' ++ [rows])[i]? = some x := ⟨_, List.getElem?_eq_getElem (by omega)⟩
      have hx0 : x ≠ [] := by
        have := List.mem_of_getElem? hx
        rcases List.mem_append.1 this with h | h
        · rw [List.eq_of_mem_replicate h]; exact h1
        · rw [List.mem_singleton.1 h]; exact h2
      refine ⟨⟨i, 0, x[0]'(List.length_pos_iff.2 hx0)⟩, List.mem_flatMap.2 ⟨(i, x), (hget i x).2 hx, ?_⟩, rfl⟩
      exact List.mem_mapIdx.2 ⟨0, List.length_pos_iff.2 hx0, rfl⟩
  have hne : (levelFrame t).rows ≠ [] := by
    obtain ⟨r, hr, -⟩ := (hmem 0).2 (Nat.zero_le n)
    exact List.ne_nil_of_mem hr
  have hsnap : snapshotOf E rsCriteria lvLibs lvField [3 / 4] session = (Regs.empty, .ok (levelFrame t)) := by
    unfold snapshotOf
    rw [hl]
    simp only [List.foldl_cons, List.foldl_nil, (hcall session).2]
    have e1 : session.sCalls = n := (hreg n).1
    have e2 : session.sTable = numbered 0 (List.replicate n rows') := (hreg n).2
    rw [e1, e2, numbered_snoc]
    simp only [levelStep, bind, Except.bind, pure, Except.pure, ← hdef, hne, if_false, if_true]
  unfold trackFields
  rw [ht]
  simp only [List.foldl_cons, List.foldl_nil, hsnap, loopStep, bind, Except.bind, pure, Except.pure, hne, if_false, if_true]
  refine ⟨_, rfl, ?_⟩
  intro i
  rw [← hmem i]
  constructor
  · rintro ⟨r, hr, rfl⟩
    have hr := (perm_sortBy _).mem_iff.1 hr
    obtain ⟨q, hq, rfl⟩ := List.mem_map.1 hr
    exact ⟨q, hq, rfl⟩
  · rintro ⟨q, hq, rfl⟩
    exact ⟨⟨q.id, q.idx, (0, q.val)⟩, (perm_sortBy _).mem_iff.2 (List.mem_map.2 ⟨q, hq, rfl⟩), rfl⟩

end Trackeddy
