import Verif.Props.LostLevel

/-!
C64 from a map on: without the Gaussian fit a later duplicate with the lower ellipse score does not replace the eddy found before
(trackeddy/utils.py:45-115). The map is the one of Props/LevelsExample.lean.
-/
namespace Trackeddy
open Spec

theorem select_one {β : Type} {near : β → β → Prop} (a : β) : select near [[a]] = [a] := by
  classical
  unfold select
  simp

/-- the ellipse score of the eddy of one contour -/
theorem lvError {s : ℝ} (h0 : 0 < s) {l : ℝ} {e : EddyObj} (hc : contourList lvLibs lvField l = [(lvPts s).map some])
    (hf : foundIn lvCriteria lvLibs lvField l = [e]) {v : ℝ} (hv : similarity 100 (lvPts s) (lvCurve s) = .ok (some v)) :
    e.ellipseError = some v := by
  unfold foundIn at hf
  rw [hc] at hf
  have hse : storedEddy lvCriteria lvLibs lvField l ((lvPts s).map some) = some e := by
    cases hx : storedEddy lvCriteria lvLibs lvField l ((lvPts s).map some) with
    | none => rw [List.filterMap_cons_none hx] at hf; simp at hf
    | some e' =>
      rw [List.filterMap_cons_some hx, List.filterMap_nil] at hf
      injection hf with hf
      rw [hf]
  have hex : examine lvCriteria lvLibs lvField l ((lvPts s).map some) = .ok (.stored e) := by
    unfold storedEddy at hse
    split at hse
    · rename_i e' he
      injection hse with hse
      rw [he, hse]
    · cases hse
  obtain ⟨-, hpts, curve, i, h⟩ := examine_stored.1 hex
  have hpts : lvPts s = e.contour := (List.map_injective_iff.2 (Option.some_injective _)) hpts
  have hfit := h.fit
  rw [← hpts, lvFit h0] at hfit
  injection hfit with hfit
  injection hfit with hcurve _
  have hsim := h.sim
  rw [← hpts, ← hcurve] at hsim
  have hlim : lvLibs.limit = 100 := rfl
  rw [hlim, hv] at hsim
  injection hsim with hsim
  exact hsim.symm

/-- **C64** is false from the map on: without the Gaussian fit, of the eddies that the levels 5/8 and 3/4 give on their own the one of 3/4 has the
lower ellipse score, and the levels 5/8 and 3/4 in this order keep the one of 5/8 and nothing else. -/
theorem C64_refuted_from_data : ∃ (c : Criteria ℝ) (L : Libs) (S : Fields), S.Ok ∧ S.Rectilinear ∧ L.Nearest ∧ c.skipGauss = true ∧
    ∀ (prunes : Bool) (nn : List (ℝ × ℝ) → ℝ × ℝ → Nat), IsNN haversine nn → ∃ C C' C'',
      (snapshotOf (colsEnv prunes nn) c L S [5 / 8] Regs.empty).2 = .ok C ∧
      (snapshotOf (colsEnv prunes nn) c L S [3 / 4] Regs.empty).2 = .ok C' ∧
      (snapshotOf (colsEnv prunes nn) c L S [5 / 8, 3 / 4] Regs.empty).2 = .ok C'' ∧ C.rows ≠ [] ∧ C'.rows ≠ [] ∧
      (∀ r ∈ C.rows, ∀ r' ∈ C'.rows,
        ∃ x y, ("contour_ellipse_error", some x) ∈ r'.val ∧ ("contour_ellipse_error", some y) ∈ r.val ∧ x < y) ∧
      C''.rows = C.rows := by
  refine ⟨lvCriteria, lvLibs, lvField, lvField_ok, lvField_rect, lvLibs_nearest, rfl, ?_⟩
  intro prunes nn hnn
  obtain ⟨e, e', f1, f2, -, -, n1, n2, hok⟩ := lvFound
  obtain ⟨v, w, hv, hw, hlt⟩ := lgSim_ellipse
  have x1 := lvError (by norm_num) (lvField_contours lvLibs).1 f1 hv
  have x2 := lvError (by norm_num) (lvField_contours lvLibs).2 f2 hw
  obtain ⟨C, h1, h1'⟩ := pureSnapshot_select (prunes := prunes) hnn (c := lvCriteria) rfl (L := lvLibs) lvField_ok (levels := [5 / 8])
    (fun l hl _ => hok l (Or.inr (by simpa using hl)))
  obtain ⟨C', h2, h2'⟩ := pureSnapshot_select (prunes := prunes) hnn (c := lvCriteria) rfl (L := lvLibs) lvField_ok (levels := [3 / 4])
    (fun l hl _ => hok l (Or.inl (by simpa using hl)))
  obtain ⟨C'', h3, h3'⟩ := pureSnapshot_select (prunes := prunes) hnn (c := lvCriteria) rfl (L := lvLibs) lvField_ok (levels := [5 / 8, 3 / 4])
    (fun l hl _ => hok l (by have : l = 5 / 8 ∨ l = 3 / 4 := by simpa using hl
                             exact this.symm))
  rw [show ([5 / 8] : List ℝ).filter (· ≠ 0) = [5 / 8] by norm_num, List.map_cons, List.map_nil, f2, select_one] at h1'
  rw [show ([3 / 4] : List ℝ).filter (· ≠ 0) = [3 / 4] by norm_num, List.map_cons, List.map_nil, f1, select_one] at h2'
  rw [show ([5 / 8, 3 / 4] : List ℝ).filter (· ≠ 0) = [5 / 8, 3 / 4] by norm_num, List.map_cons, List.map_cons, List.map_nil, f1, f2,
    select_near n2] at h3'
  have hne : ∀ o : EddyObj, tableRows o.data ≠ [] → snapRows [tableRows o.data] ≠ [] := by
    intro o ho
    unfold snapRows eddyRows
    simpa using ho
  refine ⟨C, C', C'', by rw [(snapshotOf_pure _ _ _ lvField_ok _ ⟨rfl, rfl⟩).1]; exact h1,
    by rw [(snapshotOf_pure _ _ _ lvField_ok _ ⟨rfl, rfl⟩).1]; exact h2,
    by rw [(snapshotOf_pure _ _ _ lvField_ok _ ⟨rfl, rfl⟩).1]; exact h3, ?_, ?_, ?_, h3'.trans h1'.symm⟩
  · rw [h1']
    exact hne e' (foundIn_ne lvField_ok _ e' (by rw [f2]; simp))
  · rw [h2']
    exact hne e (foundIn_ne lvField_ok _ e (by rw [f1]; simp))
  · intro r hr r' hr'
    rw [h1'] at hr
    rw [h2'] at hr'
    obtain ⟨-, a1, -⟩ := lgRow hr
    obtain ⟨-, b1, -⟩ := lgRow hr'
    rw [x2] at a1
    rw [x1] at b1
    exact ⟨v, w, b1, a1, hlt⟩

end Trackeddy
