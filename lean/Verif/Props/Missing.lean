import Verif.Props.Robust
import Verif.Props.Region

/-!
C77 for the tables of a level: what becomes of the contours that run into missing data.
-/
namespace Trackeddy
open Spec

/-- the rows that a level contributes to the table of discarded contours, without their numbers -/
theorem discardedOf_measures (c : Criteria ℝ) (L : Libs) (S : Fields) (l : ℝ) (cs : List (List (Cntr.Vertex ℝ))) :
    discardedOf c (cs.map (measures c L S l)) = cs.filterMap fun vs => match examine c L S l vs with
      | .ok (.discarded r) => some r
      | _ => none := by
  unfold discardedOf
  rw [List.filterMap_map]
  refine List.filterMap_congr fun vs _ => ?_
  simp only [Function.comp_apply]
  rw [verdict_measures]
  cases examine c L S l vs with
  | error e => rfl
  | ok o => cases o <;> rfl

theorem allPoints_missing {vs : List (Cntr.Vertex ℝ)} (h : none ∈ vs) : allPoints vs = none := by
  cases hp : allPoints vs with
  | none => rfl
  | some pts =>
    rw [allPoints_eq.1 hp] at h
    simp at h

theorem examine_missing_first (c : Criteria ℝ) (L : Libs) (S : Fields) (l : ℝ) {vs : List (Cntr.Vertex ℝ)} (hn : none ∈ vs)
    (hh : vs.head? = some none) : examine c L S l vs = .ok .skipped := by
  unfold examine
  rw [if_pos ((Cntr.C77_partial hn).2 hh)]

theorem examine_missing (c : Criteria ℝ) (L : Libs) (S : Fields) (l : ℝ) {vs : List (Cntr.Vertex ℝ)} (hn : none ∈ vs)
    (hh : vs.head? ≠ some none) : examine c L S l vs = .ok (.discarded .ellipseArea) := by
  unfold examine
  rw [if_neg fun h => hh ((Cntr.C77_partial hn).1 h), allPoints_missing hn]

/-- **C77, partial** for the tables of a level: a contour with a missing vertex is never stored; if its first vertex is missing it
leaves no trace, otherwise it is listed among the discarded contours, as one whose area does not fit. -/
theorem C77_partial_level {c : Criteria ℝ} {L : Libs} {S : Fields} (h : S.Ok) {l : ℝ} {regs : Regs Cols}
    {tbl : List (Nat × List Cols)} {disc : List (Nat × Reason)}
    (hr : (detectLevel c L S Regs.empty l) = (regs, .ok (tbl, disc))) :
    ∃ (cs : List (List (Cntr.Vertex ℝ))) (kind : List (Cntr.Vertex ℝ) → Verdict), contoursOf L S.X S.Y S.data l = .ok cs ∧
      tbl.length = cs.countP (fun vs => kind vs = .stored) ∧
      (disc.map Prod.snd = cs.filterMap fun vs => match kind vs with
        | .discarded r => some r
        | _ => none) ∧
      ∀ vs ∈ cs, none ∈ vs → kind vs = if vs.head? = some none then .skipped else .discarded .ellipseArea := by
  classical
  have hx : (detectLevel c L S Regs.empty l).2 = .ok (tbl, disc) := by rw [hr]
  have hall := (detectLevel_total h l Regs.empty).1.1 ⟨_, hx⟩
  rw [detectLevel_measures h] at hx
  have hok := detectOneLevel_complete hx
  rw [detectOneLevel_ok c _ hok] at hx
  simp only [Except.ok.injEq, Prod.mk.injEq] at hx
  obtain ⟨ht, hd⟩ := hx
  refine ⟨contourList L S l, fun vs => match examine c L S l vs with
    | .ok o => o.kind
    | .error _ => .skipped, (contourList_lines L h l).1, ?_, ?_, ?_⟩
  · rw [← ht]
    have e1 : ((if storedOf c (levelMeasures c L S l) = [] then [] else (Regs.empty : Regs Cols).sTable ++
        numbered (Regs.empty : Regs Cols).sCalls (storedOf c (levelMeasures c L S l))) : List (Nat × List Cols)).length =
        (storedOf c (levelMeasures c L S l)).length := by
      split
      · next h0 => simp [h0]
      · simp [Regs.empty, numbered]
    rw [e1]
    unfold storedOf levelMeasures
    rw [List.length_map, ← List.countP_eq_length_filter, List.countP_map]
    refine List.countP_congr fun vs hvs => ?_
    simp only [Function.comp_apply, decide_eq_true_eq]
    rw [verdict_measures]
    cases examine c L S l vs with
    | error e => simp [Except.map]
    | ok o => simp [Except.map]
  · rw [← hd]
    have e1 : ((if discardedOf c (levelMeasures c L S l) = [] then [] else (Regs.empty : Regs Cols).dTable ++
        numbered (Regs.empty : Regs Cols).dCalls (discardedOf c (levelMeasures c L S l))) : List (Nat × Reason)).map Prod.snd =
        discardedOf c (levelMeasures c L S l) := by
      split
      · next h0 => simp [h0]
      · apply List.ext_getElem? ; intro i; simp [Regs.empty, numbered]
    rw [e1]
    unfold levelMeasures
    rw [discardedOf_measures]
    refine List.filterMap_congr fun vs _ => ?_
    beta_reduce
    cases examine c L S l vs with
    | error e => rfl
    | ok o => cases o <;> rfl
  · intro vs hvs hn
    by_cases hh : vs.head? = some none
    · simp only [examine_missing_first c L S l hn hh, hh, if_true]; rfl
    · simp only [examine_missing c L S l hn hh, hh, if_false]; rfl

/-! `C77_refuted_level` shows a case that meets the hypotheses: two peaks, one with a missing neighbour in the north, one with a missing neighbour in the south -/

def miX : Cntr.NdArr ℚ := ⟨3, 6, fun _ c => c⟩
def miY : Cntr.NdArr ℚ := ⟨3, 6, fun r _ => r⟩
def miZ : Cntr.NdArr (Option ℚ) := ⟨3, 6, fun r c => if (r, c) = (2, 1) ∨ (r, c) = (0, 4) then none else
  some (if (r, c) = (1, 1) ∨ (r, c) = (1, 4) then 1 else 0)⟩

noncomputable def miField : Fields :=
  ⟨miX.cast (Rat.castHom ℝ), miY.cast (Rat.castHom ℝ), miZ.castO (Rat.castHom ℝ)⟩

theorem miField_ok : miField.Ok := ⟨rfl, rfl, fun M hM => by cases hM⟩

theorem miq_contours : Cntr.extractContours miX miY miZ (1 / 2) 74 Cntr.exMem =
    .ok ([[some (1, 1 / 2), some (3 / 2, 1), none, some (1 / 2, 1), some (1, 1 / 2)],
      [none, some (9 / 2, 1), some (4, 3 / 2), some (7 / 2, 1), none]].map .points, [.codes [1, 2, 2, 2, 2], .codes [1, 2, 2, 2, 2]]) := by
  decide +kernel

theorem miField_contours (L : Libs) : contourList L miField (1 / 2) =
    [[some (1, 1 / 2), some (3 / 2, 1), none, some (1 / 2, 1), some (1, 1 / 2)],
      [none, some (9 / 2, 1), some (4, 3 / 2), some (7 / 2, 1), none]] := by
  have h := contourList_rat (X := miX) (Y := miY) (Z := miZ) ⟨rfl, rfl, fun M hM => by cases hM⟩ (S := miField)
    ⟨SameArr.refl _, SameArr.refl _, SameArr.refl _⟩ (1 / 2) (by decide) miq_contours L
  norm_num at h ⊢
  exact h

/-- **C77** is false for the tables too, whatever the criteria and the libraries: of two contours with missing vertices one is
listed among the discarded contours and the other is not. -/
theorem C77_refuted_level : ∃ S : Fields, S.Ok ∧ S.Rectilinear ∧ ∀ (c : Criteria ℝ) (L : Libs), ∃ (cs : List (List (Cntr.Vertex ℝ))),
    contoursOf L S.X S.Y S.data (1 / 2) = .ok cs ∧ cs.length = 2 ∧ (∀ vs ∈ cs, none ∈ vs) ∧
    (detectLevel c L S Regs.empty (1 / 2)).2 = .ok ([], [(0, .ellipseArea)]) := by
  refine ⟨miField, miField_ok, ?_, fun c L => ⟨_, (contourList_lines L miField_ok _).1, ?_, ?_, ?_⟩⟩
  · refine ⟨fun c => c, fun r => r, fun r c => ?_, fun r c => ?_, Or.inl ?_, Or.inl ?_⟩
    · simp [miField, Cntr.NdArr.cast, miX]
    · simp [miField, Cntr.NdArr.cast, miY]
    · intro i j hij _
      exact Nat.cast_le.2 hij
    · intro i j hij _
      exact Nat.cast_le.2 hij
  · rw [miField_contours]; rfl
  · rw [miField_contours]; simp
  · have h1 : examine c L miField (1 / 2) [some (1, 1 / 2), some (3 / 2, 1), none, some (1 / 2, 1), some (1, 1 / 2)] =
        .ok (.discarded .ellipseArea) := examine_missing c L _ _ (by simp) (by simp)
    have h2 : examine c L miField (1 / 2) [none, some (9 / 2, 1), some (4, 3 / 2), some (7 / 2, 1), none] = .ok .skipped :=
      examine_missing_first c L _ _ (by simp) rfl
    unfold detectLevel
    rw [(contourList_lines L miField_ok _).1, miField_contours]
    simp only [examineLoop, h1, h2, outcomeStep]
    rfl

end Trackeddy
