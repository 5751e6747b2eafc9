import Verif.Props.Defaults

/-!
C114, the exact form: the bounds of the default settings are not only necessary (`C114_defaults`) but all that is asked in addition to what every
choice of the thresholds asks (trackeddy/trackeddy.py:46-51, 284-393).
-/
namespace Trackeddy
open Spec

theorem newTracker_criteria {D : Dataset} {name : String} {nan : Bool} {o : Tracker} (ho : newTracker D name nan = .ok o) :
    o.criteria = defaultCriteria := by
  unfold newTracker lookup at ho
  simp only [bind, Except.bind, pure, Except.pure] at ho
  split at ho
  · cases ho
  · split at ho
    · cases ho
    · split at ho
      · cases ho
      · split at ho
        · cases ho
        · split at ho
          · cases ho
          · injection ho with ho
            subst ho
            rfl

/-- **C114** exactly: with the settings of a new object a contour gives the eddy `e` if and only if it gives `e` with some choice of the thresholds and
`e` meets the bounds 2π deformation radii, 8.5 % of the area, 0.85, 0.85 and 0.8. -/
theorem C114_exact {D : Dataset} {name : String} {nan : Bool} {o : Tracker} (ho : newTracker D name nan = .ok o) (skip : Bool) (L : Libs)
    (S : Fields) (l : ℝ) (vs : List (Cntr.Vertex ℝ)) (e : EddyObj) :
    examine { o.criteria with skipGauss := skip } L S l vs = .ok (.stored e) ↔
      (∃ c : Criteria ℝ, c.skipGauss = skip ∧ examine c L S l vs = .ok (.stored e)) ∧
      e.radius ≤ 2 * Real.pi * approxRD (meanPt e.contour).2 ∧
      (∀ curve prm, fitEllipse e.contour = .ok (curve, prm) →
        |areaPolygon e.contour - areaPolygon curve| ≤ 1 / 10 ^ 8 + 0.085 * |areaPolygon curve|) ∧
      (∀ x, e.eccen = some x → x ≤ 0.85) ∧ (∀ s, e.ellipseError = some s → s ≤ 0.85) ∧
      (skip = false → ∀ s, e.gaussError = some s → 0.8 ≤ s) := by
  rw [newTracker_criteria ho]
  have c1 : (85 / 100 : ℝ) = 0.85 := by norm_num
  have c3 : (8 / 10 : ℝ) = 0.8 := by norm_num
  have c5 : (1 / 10 * (85 / 100) : ℝ) = 0.085 := by norm_num
  have c6 : (1 / 100000000 : ℝ) = 1 / 10 ^ 8 := by norm_num
  constructor
  · intro h
    obtain ⟨-, -, curve, i, hs⟩ := examine_stored.1 h
    refine ⟨⟨_, rfl, h⟩, hs.size, ?_, ?_, ?_, ?_⟩
    · intro curve' prm hf
      rw [hs.fit] at hf
      injection hf with hf
      injection hf with hf _
      subst hf
      have := of_decide_eq_true hs.areas
      simp only [defaultCriteria, c5, c6] at this
      exact this
    · intro x hx
      rw [← c1]
      exact not_lt.1 fun hlt => hs.eccen_le ⟨x, hx, hlt⟩
    · intro s hx
      rw [← c1]
      exact not_lt.1 fun hlt => hs.sim_le ⟨s, hx, hlt⟩
    · intro hsk s hx
      rw [← c3]
      rcases hs.gauss with ⟨h1, -⟩ | ⟨-, _, _, _, -, -, -, -, -, -, h1⟩
      · rw [show skip = true from h1] at hsk
        cases hsk
      · exact not_lt.1 fun hlt => h1 ⟨s, hx, hlt⟩
  · rintro ⟨⟨c, hc, h⟩, hsize, harea, hecc, hsim, hgauss⟩
    obtain ⟨h1, h2, curve, i, hs⟩ := examine_stored.1 h
    refine examine_stored.2 ⟨h1, h2, curve, i, { hs with size := hsize, areas := ?_, eccen_le := ?_, sim_le := ?_, gauss := ?_ }⟩
    · have := harea curve _ hs.fit
      rw [← c5, ← c6] at this
      exact decide_eq_true this
    · rintro ⟨x, hx, hgt⟩
      have := hecc x hx
      rw [← c1] at this
      exact absurd hgt (not_lt.2 this)
    · rintro ⟨x, hx, hgt⟩
      have := hsim x hx
      rw [← c1] at this
      exact absurd hgt (not_lt.2 this)
    · rcases hs.gauss with ⟨g1, g2⟩ | ⟨g1, surf, gs, gpts, g2, g3, g4, g5, g6, g7, -⟩
      · exact Or.inl ⟨hc.symm.trans g1, g2⟩
      · refine Or.inr ⟨hc.symm.trans g1, surf, gs, gpts, g2, g3, g4, g5, g6, g7, ?_⟩
        rintro ⟨x, hx, hlt⟩
        have := hgauss (hc.symm.trans g1) x hx
        rw [← c3] at this
        exact absurd hlt (not_lt.2 this)

/-- a new object and a contour that its settings accept, without the Gaussian fit -/
example : ∃ (o : Tracker) (e : EddyObj), newTracker deDataset "ssh" false = .ok o ∧
    examine { o.criteria with skipGauss := true } exLibs opField (1 / 2) (opPts.map some) = .ok (.stored e) := by
  obtain ⟨e, he⟩ := opStored
  exact ⟨_, e, deHolds.new false, he⟩

end Trackeddy
