import Verif.Props.Isometry
import Verif.Props.Traced

/-!
C105 for whole runs.
-/
namespace Trackeddy
open Spec
open Cntr (Vertex NoTies)

/-- opposite eddies, without Gaussian scores -/
def OppositeNoGauss (e e' : EddyObj) : Prop := OppositeEddy e e' ∧ e.gaussError = some 0

theorem opposite_congruent : Congruent OppositeNoGauss where
  points h := by rw [h.1.contour, List.length_reverse]
  radius h := h.1.radius
  distance {e e' f f'} h g := by
    unfold EddyObj.place
    rw [h.1.place, g.1.place]
  scores := Or.inr fun h => ⟨h.2, h.1.gaussError.trans h.2⟩

theorem negated_ok {S : Fields} (h : S.Ok) : S.negated.Ok := ⟨h.1, h.2.1, fun M hM => by cases hM⟩

/-- **C105** for whole runs, partial: without the Gaussian fit, with a threshold for the similarity of at least one, with any number of
levels, if at each time and level no value equals the level (nor the mean of the corners of a cell in which the contour has two pieces)
and all contours are closed and without consecutive vertices of opposite azimuths, then the run on the data with reversed sign at
the opposite levels gives the same identifiers and times, each row that of the opposite eddy; or the same exception. What is missing: as in
`C105_partial_from_data`. -/
theorem C105_partial_run {prunes : Bool} {nn : List (ℝ × ℝ) → ℝ × ℝ → Nat} (hnn : ByDistance nn) {c : Criteria ℝ} (hc : c.skipGauss = true)
    (h1 : 1 ≤ c.ellipseFit) {L : Libs} {field : Int → Fields} {levels : List ℝ} {t0 : Int} {tf : Option Int} {T : Nat}
    (hf : ∀ t ∈ trackTimes t0 tf T, (field t).Ok ∧ (field t).grid.Rect)
    (hv : ∀ t ∈ trackTimes t0 tf T, ∀ l ∈ levels, l ≠ 0 → NoTies (field t).data l ∧ ∀ vs ∈ contourList L (field t) l,
      vs.head? = vs.getLast? ∧ ∀ pts : List (ℝ × ℝ), vs = pts.map some → pts.IsChain NotOpposite)
    (ntimes : Int) (online : Bool) {regs regs' : Regs Cols} (hr : StoreEmpty regs) (hr' : StoreEmpty regs') :
    ResRel (RunRel (SameRowOf OppositeEddy)) (trackFields (colsEnv prunes nn) c L field levels t0 tf T ntimes online regs).2
      (trackFields (colsEnv prunes nn) c L (fun t => (field t).negated) (levels.map fun l => -l) t0 tf T ntimes online regs').2 := by
  refine ResRel.mono (fun _ _ => RunRel.mono fun _ _ => SameRowOf.mono fun _ _ h => h.1) (C126_distances_and_radii hnn opposite_congruent
    (fun t ht => (hf t ht).1) (fun t ht => negated_ok (hf t ht).1) (fun l => neg_eq_zero) ?_ ntimes online hr hr')
  intro t ht l hl h0
  have hres := (C105_partial_from_data hc h1 L (hf t ht).1 (hf t ht).2 (hv t ht l hl h0).1 (hv t ht l hl h0).2).1
  rw [List.forall₂_iff_get] at hres ⊢
  refine ⟨hres.1, fun i g1 g2 => ?_⟩
  have he := hres.2 i g1 g2
  have hg : ∀ e, ((contourList L (field t) l).map (examine c L (field t) l)).get ⟨i, g1⟩ = .ok (.stored e) → e.gaussError = some 0 := by
    intro e he
    rw [List.get_eq_getElem, List.getElem_map] at he
    exact stored_noGauss hc he
  revert he hg
  generalize ((contourList L (field t) l).map (examine c L (field t) l)).get ⟨i, g1⟩ = x
  generalize ((contourList L (field t).negated (-l)).map (examine c L (field t).negated (-l))).get ⟨i, g2⟩ = y
  intro he hg
  cases x with
  | error a => cases y <;> exact he
  | ok o =>
    cases y with
    | error b => cases o <;> exact he
    | ok o' =>
      cases o <;> cases o'
      all_goals first | exact ⟨he, hg _ rfl⟩ | exact he

/-- the hypotheses hold for a map with an eddy, repeated at all times -/
example : ∃ nn, ByDistance nn ∧ ({ mrCriteria with ellipseFit := 1 } : Criteria ℝ).skipGauss = true ∧
    (∀ t ∈ trackTimes 0 none 4, ((fun _ : Int => mrField) t).Ok ∧ ((fun _ : Int => mrField) t).grid.Rect) ∧
    (∀ t ∈ trackTimes 0 none 4, ∀ l ∈ [(0 : ℝ), 1 / 2], l ≠ 0 → NoTies ((fun _ : Int => mrField) t).data l ∧
      ∀ vs ∈ contourList mrLibs ((fun _ : Int => mrField) t) l,
      vs.head? = vs.getLast? ∧ ∀ pts : List (ℝ × ℝ), vs = pts.map some → pts.IsChain NotOpposite) ∧
    ∃ s, (trackFields (colsEnv true nn) { mrCriteria with ellipseFit := 1 } mrLibs (fun _ => mrField) [1 / 2] 0 none 1 1 true
      Regs.empty).2 = .ok s ∧ s.table.rows ≠ [] := by
  obtain ⟨nn, h1, h2⟩ := exists_byDistance
  have hok : mrField.Ok := ⟨rfl, rfl, fun M hM => by cases hM⟩
  refine ⟨nn, h2, rfl, fun _ _ => ⟨hok, mrField_gridRect⟩, ?_, ?_⟩
  · intro t _ l h h0
    simp only [List.mem_cons, List.not_mem_nil, or_false] at h
    obtain rfl := h.resolve_left h0
    refine ⟨mrField_noTies, ?_⟩
    beta_reduce
    rw [mrField_contours]
    intro vs hvs
    rw [List.mem_singleton] at hvs
    subst hvs
    refine ⟨by simp [mrPts], fun pts h => ?_⟩
    have : mrPts = pts := List.map_injective_iff.2 (Option.some_injective _) h
    exact this ▸ mrChain
  · obtain ⟨e, he⟩ := mrStored (f := 1) (by norm_num)
    obtain ⟨s, g1, g2⟩ := run_single h1 (by norm_num) hok (mrField_contours mrLibs) he
    exact ⟨s, g1, g2.2 ⟨e, rfl⟩⟩

end Trackeddy
