import Verif.Proofs.Pipeline
import Verif.Proofs.Provenance
import Verif.Proofs.Cntr.Extract

/-! The detection of snapshots and the tracking of Model/Pipeline.lean are those of Model/Tracking.lean, on the contours of the data. -/
namespace Trackeddy
open Spec
open Cntr (Vertex SameShape arrGrid)

/-- the gridded data of the fields -/
def Fields.grid (S : Fields) : Spec.Grid ℝ := arrGrid S.X S.Y S.data none

/-- the arrays have the same dimensions -/
def Fields.Ok (S : Fields) : Prop := SameShape S.X S.Y S.data none

/-- the contours that are extracted are the contour lines of the data -/
theorem contoursOf_lines (L : Libs) {X Y : Cntr.NdArr ℝ} {Z : Cntr.NdArr (Option ℝ)} (h : SameShape X Y Z none) (level : ℝ) :
    ∃ ess, Contours (arrGrid X Y Z none) level ess ∧
      contoursOf L X Y Z level = .ok (ess.map fun es => es.map ((arrGrid X Y Z none).point level)) := by
  obtain ⟨cs, h1, h2⟩ := Cntr.extract_result h level
  refine ⟨cs, h1, ?_⟩
  unfold contoursOf
  rw [h2 (4 * (Z.cols * Z.rows) + 2) _ le_rfl]
  simp only [Cntr.pointArrays]
  congr 1
  clear h1 h2
  induction cs with
  | nil => rfl
  | cons a l ih => simp only [List.map_cons, List.filterMap_cons, vertsOf, ih]

/-- the contours of a level -/
noncomputable def contourList (L : Libs) (S : Fields) (level : ℝ) : List (List (Vertex ℝ)) :=
  match contoursOf L S.X S.Y S.data level with
  | .ok cs => cs
  | .error _ => []

theorem contourList_lines (L : Libs) {S : Fields} (h : S.Ok) (level : ℝ) :
    contoursOf L S.X S.Y S.data level = .ok (contourList L S level) ∧
    ∃ ess, Contours S.grid level ess ∧ contourList L S level = ess.map fun es => es.map (S.grid.point level) := by
  obtain ⟨ess, h1, h2⟩ := contoursOf_lines L h level
  unfold contourList
  rw [h2]
  exact ⟨rfl, ess, h1, rfl⟩

theorem contourList_ne (L : Libs) {S : Fields} (h : S.Ok) (level : ℝ) : ∀ vs ∈ contourList L S level, vs ≠ [] := by
  obtain ⟨_, ess, h1, h2⟩ := contourList_lines L h level
  rw [h2]
  intro vs hvs
  obtain ⟨es, hes, rfl⟩ := List.mem_map.1 hvs
  have := (h1.each es hes).two
  intro h
  rw [List.map_eq_nil_iff] at h
  rw [h] at this
  simp at this

/-- the quantities of the contours of a level -/
noncomputable def levelMeasures (c : Criteria ℝ) (L : Libs) (S : Fields) (level : ℝ) : List (Measures Cols ℝ) :=
  (contourList L S level).map (measures c L S level)

theorem detectLevel_measures {c : Criteria ℝ} {L : Libs} {S : Fields} (h : S.Ok) (level : ℝ) (regs : Regs Cols) :
    detectLevel c L S regs level = detectOneLevel c regs (levelMeasures c L S level) :=
  detectLevel_eq (contourList_lines L h level).1 (contourList_ne L h level) regs

theorem snapshotOf_eq {Pt : Type} (E : Env Cols ℝ Pt) (c : Criteria ℝ) (L : Libs) {S : Fields} (h : S.Ok) (levels : List ℝ)
    (regs : Regs Cols) :
    snapshotOf E c L S levels regs = detectSnapshotR E c (levelMeasures c L S) levels regs := by
  unfold snapshotOf detectSnapshotR
  congr 1
  funext st level
  obtain ⟨r, x⟩ := st
  cases x with
  | error e => rfl
  | ok joint =>
    simp only [detectLevel_measures h]
    cases detectOneLevel c r (levelMeasures c L S level) with
    | mk r' y => cases y <;> rfl

/-- the snapshot as a function of the data -/
noncomputable def pureSnapshot {Pt : Type} (E : Env Cols ℝ Pt) (c : Criteria ℝ) (L : Libs) (S : Fields) (levels : List ℝ) :
    Except PyErr (Tbl Cols) :=
  detectSnapshot E (fun l => pureLevel c (levelMeasures c L S l)) levels

theorem snapshotOf_pure {Pt : Type} (E : Env Cols ℝ Pt) (c : Criteria ℝ) (L : Libs) {S : Fields} (h : S.Ok) (levels : List ℝ)
    {regs : Regs Cols} (hr : StoreEmpty regs) :
    (snapshotOf E c L S levels regs).2 = pureSnapshot E c L S levels ∧
      ((∃ t, (snapshotOf E c L S levels regs).2 = .ok t) → StoreEmpty (snapshotOf E c L S levels regs).1) := by
  rw [snapshotOf_eq E c L h]
  have := detectSnapshotR_strong E c (levelMeasures c L S) levels hr
  exact ⟨this.1, fun ht => this.2 (Or.inl ht)⟩

theorem trackFields_pure {Pt : Type} (E : Env Cols ℝ Pt) (c : Criteria ℝ) (L : Libs) {field : Int → Fields} {levels : List ℝ}
    {t0 : Int} {tf : Option Int} {T : Nat} {ntimes : Int} {online : Bool} {regs : Regs Cols}
    (h : ∀ t ∈ trackTimes t0 tf T, (field t).Ok) (hr : StoreEmpty regs) :
    (trackFields E c L field levels t0 tf T ntimes online regs).2 =
      timeTracking E (fun t => pureSnapshot E c L (field t) levels) t0 tf T ntimes online ∧
    ((∃ s, (trackFields E c L field levels t0 tf T ntimes online regs).2 = .ok s) →
      StoreEmpty (trackFields E c L field levels t0 tf T ntimes online regs).1) := by
  unfold trackFields timeTracking
  generalize trackTimes t0 tf T = ts at h
  induction ts using List.reverseRecOn with
  | nil => exact ⟨rfl, fun _ => hr⟩
  | append_singleton ts t ih =>
    have ih := ih (fun t ht => h t (by simp [ht]))
    have ht := h t (by simp)
    rw [List.foldl_append, foldlM_snoc]
    simp only [List.foldl_cons, List.foldl_nil]
    generalize hF : List.foldl _ (regs, _) ts = F at ih ⊢
    obtain ⟨r, y⟩ := F
    obtain ⟨ih1, ih2⟩ := ih
    simp only at ih1 ih2
    cases y with
    | error e =>
      simp only
      rw [← ih1]
      exact ⟨rfl, fun ⟨t, ht⟩ => by cases ht⟩
    | ok s =>
      rw [← ih1]
      have hse := ih2 ⟨s, rfl⟩
      have hp := snapshotOf_pure E c L ht levels hse
      refine ⟨?_, ?_⟩
      · simp only [Except.bind]
        unfold loopStep
        simp only [hp.1]
      · rintro ⟨s', hs'⟩
        apply hp.2
        cases hz : (snapshotOf E c L (field t) levels r).2 with
        | ok tb => exact ⟨tb, rfl⟩
        | error e =>
          simp only [loopStep, hz] at hs'
          cases hs'

end Trackeddy
