import Verif.Props.FromData
import Verif.Props.LevelsExample

/-!
C21 from a map on: the list of discarded contours grows with every call that stores no eddy (trackeddy/decorators.py:6-38, 71-88). The map is
the one of Props/LevelsExample.lean, the criteria allow no area.
-/
namespace Trackeddy
open Spec
open Cntr (Vertex)

/-- criteria under which every contour is too large -/
noncomputable def dcCriteria : Criteria ℝ := { lvCriteria with maxArea := 0 }

theorem dcExamine (L : Libs) (level : ℝ) {s : ℝ} (h0 : 0 < s) (h1 : s < 1 / 2) :
    examine dcCriteria L lvField level ((lvPts s).map some) = .ok (.discarded .area) := by
  have hr : 0 < Real.sqrt (areaPolygon (lvPts s) / Real.pi) :=
    Real.sqrt_pos.2 (div_pos (lvArea_pos h0 h1) Real.pi_pos)
  unfold examine
  rw [lvSkips h0 h1, if_neg (by simp), allPoints_eq.2 rfl]
  simp only [examinePoints]
  have : dcCriteria.maxArea = 0 := rfl
  rw [if_pos (by rw [this, zero_mul]; exact hr)]
  rfl

/-- **C21** is false, from a map on: the map has a single contour line at the level, and the level is detected again and again with
criteria which the contour does not meet. The (n + 1)-th call lists n + 1 discarded contours. -/
theorem C21_refuted_from_data : ∃ k : LevelCall, k.data.Ok ∧ k.data.Rectilinear ∧ k.libs.Nearest ∧
    (∃ line, Contours k.data.grid k.level [line]) ∧
    ∀ n, (k.run (afterCalls (List.replicate n k))).2 = .ok ([], numbered 0 (List.replicate (n + 1) Reason.area)) := by
  refine ⟨⟨dcCriteria, lvLibs, lvField, 3 / 4⟩, lvField_ok, lvField_rect, lvLibs_nearest, ?_, ?_⟩
  · obtain ⟨-, ess, h1, h2⟩ := contourList_lines lvLibs lvField_ok (3 / 4)
    rw [(lvField_contours lvLibs).1] at h2
    have h3 := congrArg List.length h2
    rw [List.length_map] at h3
    obtain ⟨es, rfl⟩ := List.length_eq_one_iff.1 h3.symm
    exact ⟨es, h1⟩
  set k : LevelCall := ⟨dcCriteria, lvLibs, lvField, 3 / 4⟩ with hk
  have hm : levelMeasures dcCriteria lvLibs lvField (3 / 4) =
      [measures dcCriteria lvLibs lvField (3 / 4) ((lvPts (1 / 4)).map some)] := by
    unfold levelMeasures
    rw [(lvField_contours lvLibs).1]
    rfl
  have hv : verdict dcCriteria (measures dcCriteria lvLibs lvField (3 / 4) ((lvPts (1 / 4)).map some)) =
      .ok (.discarded .area) := by
    rw [verdict_measures, dcExamine lvLibs _ (by norm_num) (by norm_num)]
    rfl
  have hst : storedOf dcCriteria (levelMeasures dcCriteria lvLibs lvField (3 / 4)) = [] := by
    rw [hm]; unfold storedOf; rw [List.filter_cons_of_neg (by rw [hv]; simp)]; rfl
  have hdi : discardedOf dcCriteria (levelMeasures dcCriteria lvLibs lvField (3 / 4)) = [.area] := by
    rw [hm]; unfold discardedOf; rw [List.filterMap_cons, hv]; rfl
  have hrun : ∀ r, k.run r = (⟨r.sCalls, r.sTable, r.dCalls + 1, r.dTable ++ numbered r.dCalls [.area]⟩,
      .ok ([], r.dTable ++ numbered r.dCalls [.area])) := by
    intro r
    unfold LevelCall.run
    rw [detectLevel_measures lvField_ok]
    unfold detectOneLevel
    rw [contourLoop_ok _ _ (by rw [hm]; intro m h; rw [List.mem_singleton.1 h]; exact ⟨_, hv⟩), hst, hdi]
    simp [numbered_nil]
  have hnum : ∀ n, numbered 0 (List.replicate n Reason.area) ++ numbered n [.area] =
      numbered 0 (List.replicate (n + 1) Reason.area) := by
    intro n
    simp [numbered, List.replicate_succ', List.mapIdx_append]
  have hreg : ∀ n, (afterCalls (List.replicate n k)).dCalls = n ∧
      (afterCalls (List.replicate n k)).dTable = numbered 0 (List.replicate n Reason.area) := by
    intro n
    induction n with
    | zero => exact ⟨rfl, rfl⟩
    | succ n ih =>
      have e : afterCalls (List.replicate (n + 1) k) = (k.run (afterCalls (List.replicate n k))).1 := by
        unfold afterCalls
        rw [List.replicate_succ', List.foldl_append]
        rfl
      rw [e, hrun]
      simp only [ih.1, ih.2]
      exact ⟨trivial, hnum n⟩
  intro n
  rw [hrun, (hreg n).1, (hreg n).2, hnum]

end Trackeddy
