import Verif.Props.PipelineExample
import Verif.Proofs.Crossing

/-!
C109: contour lines do not cross.
-/
namespace Trackeddy
open Spec
open Cntr (SameShape arrGrid bound Memory extractContours Item)

section
variable {K : Type} [Field K] [LinearOrder K] [IsStrictOrderedRing K]

theorem points_mem_lines {X Y : Cntr.NdArr K} {Z : Cntr.NdArr (Option K)} (h : SameShape X Y Z none) {l : K} {fuel : Nat} {mem : Memory}
    (hf : bound Z ≤ fuel) {segs cods : List (Item K)} (h1 : extractContours X Y Z l fuel mem = .ok (segs, cods)) :
    ∃ cs, Contours (arrGrid X Y Z none) l cs ∧ segs = cs.map fun es => .points (es.map ((arrGrid X Y Z none).point l)) := by
  obtain ⟨cs, hcs, hr⟩ := Cntr.extract_result h l
  rw [hr fuel mem hf] at h1
  injection h1 with h1
  injection h1 with h1 h2
  exact ⟨cs, hcs, h1.symm⟩

/-- **C109** Contours of different levels have no point in common. The grid lines are parallel to the axes; values may be missing and
may be equal to the levels. -/
theorem C109_levels {X Y : Cntr.NdArr K} {Z : Cntr.NdArr (Option K)} (h : SameShape X Y Z none) (hG : (arrGrid X Y Z none).Rect) {l l' : K}
    (hne : l ≠ l') {fuel fuel' : Nat} {mem mem' : Memory} (hf : bound Z ≤ fuel) (hf' : bound Z ≤ fuel')
    {segs cods segs' cods' : List (Item K)} (h1 : extractContours X Y Z l fuel mem = .ok (segs, cods))
    (h2 : extractContours X Y Z l' fuel' mem' = .ok (segs', cods')) {ps ps' : List (Option (K × K))}
    (hp : Item.points ps ∈ segs) (hp' : Item.points ps' ∈ segs') : ¬ Meet ps ps' := by
  obtain ⟨cs, hcs, rfl⟩ := points_mem_lines h hf h1
  obtain ⟨cs', hcs', rfl⟩ := points_mem_lines h hf' h2
  obtain ⟨es, he, e1⟩ := List.mem_map.1 hp
  obtain ⟨es', he', e2⟩ := List.mem_map.1 hp'
  injection e1 with e1
  injection e2 with e2
  subst e1
  subst e2
  exact Crossing.lines_levels hG hne (hcs.each es he) (hcs'.each es' he')

/-- **C109** The contours of a level that is not a value of the data do not touch themselves and have no points in common. -/
theorem C109_one_level {X Y : Cntr.NdArr K} {Z : Cntr.NdArr (Option K)} (h : SameShape X Y Z none) (hG : (arrGrid X Y Z none).Rect) {l : K}
    (hm : (arrGrid X Y Z none).Misses l) {fuel : Nat} {mem : Memory} (hf : bound Z ≤ fuel) {segs cods : List (Item K)}
    (h1 : extractContours X Y Z l fuel mem = .ok (segs, cods)) :
    (∀ ps : List (Option (K × K)), Item.points ps ∈ segs → Simple ps) ∧
      ∀ (m m' : ℕ) (ps ps' : List (Option (K × K))), m ≠ m' → segs[m]? = some (.points ps) → segs[m']? = some (.points ps') → ¬ Meet ps ps' := by
  obtain ⟨cs, hcs, rfl⟩ := points_mem_lines h hf h1
  constructor
  · intro ps hp
    obtain ⟨es, he, e1⟩ := List.mem_map.1 hp
    injection e1 with e1
    subst e1
    exact Crossing.line_simple hG hm hcs he
  · intro m m' ps ps' hmm e1 e2
    rw [List.getElem?_map, Option.map_eq_some_iff] at e1 e2
    obtain ⟨es, he, e1⟩ := e1
    obtain ⟨es', he', e2⟩ := e2
    injection e1 with e1
    injection e2 with e2
    subst e1
    subst e2
    exact Crossing.lines_apart hG hm hcs hmm he he'
end

/-! ### examples -/

/-- a saddle in the middle of three rows and columns -/
def crX : Cntr.NdArr ℚ := ⟨3, 3, fun _ i => i⟩
def crY : Cntr.NdArr ℚ := ⟨3, 3, fun j _ => j⟩
def crZ : Cntr.NdArr (Option ℚ) := ⟨3, 3, fun j i => some (if j = 1 then if i = 1 then 0 else 1 else -1)⟩

theorem crGrid_rect : (arrGrid crX crY crZ none).Rect :=
  ⟨fun i => i, fun j => j, fun _ _ _ _ => ⟨rfl, rfl⟩, Or.inl fun _ _ h _ => Nat.cast_lt.2 h, Or.inl fun _ _ h _ => Nat.cast_lt.2 h⟩

/-- the contours of three levels -/
theorem cr_half : extractContours crX crY crZ (1 / 2) 38 Cntr.exMem = .ok
      ([.points [some (0, 3 / 4), some (1 / 2, 1), some (0, 5 / 4)], .points [some (2, 3 / 4), some (3 / 2, 1), some (2, 5 / 4)]],
        [.codes [1, 2, 2], .codes [1, 2, 2]]) := by
  decide +kernel

theorem cr_third : extractContours crX crY crZ (1 / 3) 38 Cntr.exMem = .ok
      ([.points [some (0, 2 / 3), some (2 / 3, 1), some (0, 4 / 3)], .points [some (2, 2 / 3), some (4 / 3, 1), some (2, 4 / 3)]],
        [.codes [1, 2, 2], .codes [1, 2, 2]]) := by
  decide +kernel

theorem cr_zero : extractContours crX crY crZ 0 38 Cntr.exMem = .ok
      ([.points [some (0, 1 / 2), some (1, 1), some (0, 3 / 2)], .points [some (2, 1 / 2), some (1, 1), some (2, 3 / 2)]],
        [.codes [1, 2, 2], .codes [1, 2, 2]]) := by
  decide +kernel

theorem crShape : SameShape crX crY crZ none := ⟨rfl, rfl, by simp⟩

/-- the hypotheses of `C109_levels` hold for two levels with contours -/
example : ¬ Meet (K := ℚ) [some (0, 3 / 4), some (1 / 2, 1), some (0, 5 / 4)] [some (0, 2 / 3), some (2 / 3, 1), some (0, 4 / 3)] :=
  C109_levels crShape crGrid_rect (l := 1 / 2) (l' := 1 / 3) (by norm_num) (le_refl 38) (le_refl 38) cr_half cr_third
    (List.mem_cons_self ..) (List.mem_cons_self ..)

/-- the hypotheses of `C109_one_level` hold for a closed contour and one from border to border -/
example : Simple (K := ℚ) [some (1, 1 / 2), some (3 / 2, 1), some (1, 3 / 2), some (1 / 2, 1), some (1, 1 / 2)] ∧
    ¬ Meet (K := ℚ) [some (1, 1 / 2), some (3 / 2, 1), some (1, 3 / 2), some (1 / 2, 1), some (1, 1 / 2)]
      [some (3, 1 / 4), some (9 / 4, 1), some (3, 7 / 4)] := by
  have hG : (arrGrid Cntr.exX Cntr.exY Cntr.exZ none).Rect :=
    ⟨fun i => i, fun j => j, fun _ _ _ _ => ⟨rfl, rfl⟩, Or.inl fun _ _ h _ => Nat.cast_lt.2 h, Or.inl fun _ _ h _ => Nat.cast_lt.2 h⟩
  have hm : (arrGrid Cntr.exX Cntr.exY Cntr.exZ none).Misses (1 / 2) := by
    intro i j _ _ h
    have h : (if i = 1 ∧ j = 1 then (1 : ℚ) else if i = 3 ∧ j = 1 then 2 else 0) = 1 / 2 := Option.some.inj h
    split_ifs at h <;> norm_num at h
  have hr : extractContours Cntr.exX Cntr.exY Cntr.exZ (1/2) (bound Cntr.exZ) Cntr.exMem = .ok
    ([.points [some (1, 1/2), some (3/2, 1), some (1, 3/2), some (1/2, 1), some (1, 1/2)],
      .points [some (3, 1/4), some (9/4, 1), some (3, 7/4)]],
     [.codes [1, 2, 2, 2, 2], .codes [1, 2, 2]]) := by decide +kernel
  obtain ⟨h1, h2⟩ := C109_one_level Cntr.exShape hG hm le_rfl hr
  exact ⟨h1 _ (List.mem_cons_self ..), h2 0 1 _ _ (by decide) rfl rfl⟩

/-- **C109** A level that is a value of the data: two contours that touch at the grid point with this value. The condition of
`C109_one_level` cannot be left out. -/
theorem C109_touch_at_values : ∃ (X Y : Cntr.NdArr ℚ) (Z : Cntr.NdArr (Option ℚ)) (l : ℚ) (mem : Memory)
    (ps ps' : List (Option (ℚ × ℚ))) (cods : List (Item ℚ)), SameShape X Y Z none ∧ (arrGrid X Y Z none).Rect ∧
    (∀ j i, (Z.get j i).isSome) ∧ extractContours X Y Z l (bound Z) mem = .ok ([.points ps, .points ps'], cods) ∧ Meet ps ps' :=
  ⟨crX, crY, crZ, 0, Cntr.exMem, _, _, _, crShape, crGrid_rect, fun _ _ => rfl, cr_zero, (1, 1), 0, 0,
    ⟨_, _, 1, rfl, rfl, by norm_num, by norm_num, by norm_num⟩, ⟨_, _, 1, rfl, rfl, by norm_num, by norm_num, by norm_num⟩⟩

/-! ### eddies -/

/-- the contours of two eddies have no point in common -/
def ApartEddies (d d' : EddyData (Option ℝ)) : Prop :=
  ∃ pts pts', HasContour d pts ∧ HasContour d' pts' ∧ ¬ Meet (pts.map some) (pts'.map some)

/-- **C109** The contours of two different eddies of a time have no point in common, if their levels differ or if no value of the data
is their level. -/
theorem C109_eddies {Pt : Type} {E : Env Cols ℝ Pt} (hnn : IsNN E.dist E.nn) {c : Criteria ℝ} {L : Libs}
    {field : Int → Fields} {levels : List ℝ} {t0 : Int} {tf : Option Int} {T : Nat} {ntimes : Int} {regs : Regs Cols}
    (h : ∀ t ∈ trackTimes t0 tf T, (field t).Ok) (hG : ∀ t ∈ trackTimes t0 tf T, (field t).grid.Rect) (hr : StoreEmpty regs)
    {s : LoopState Cols} (hs : (trackFields E c L field levels t0 tf T ntimes true regs).2 = .ok s) :
    ∃ ds : List (Nat × Int × EddyData (Option ℝ)),
      s.table.rows.Perm (ds.flatMap fun p => atTime p.2.1 (eddyRows p.1 (tableRows p.2.2))) ∧
      ∀ p ∈ ds, ∀ q ∈ ds, p.2.1 = q.2.1 → p.2.2 ≠ q.2.2 →
        (p.2.2.level ≠ q.2.2.level ∨ ∀ l, p.2.2.level = some l → (field p.2.1).grid.Misses l) → ApartEddies p.2.2 q.2.2 := by
  obtain ⟨ls, hls, hperm⟩ := trackFields_made hnn h hr hs
  by_cases hemp : ls = []
  · subst hemp
    exact ⟨[], hperm, fun p hp => absurd hp (List.not_mem_nil)⟩
  haveI : Nonempty EddyObj := by
    obtain ⟨p, hp⟩ := List.exists_mem_of_ne_nil _ hemp
    obtain ⟨_, _, _, _, _, e, _⟩ := hls p hp
    exact ⟨e⟩
  choose! lev hlev hlev0 vs hvs e hst hrow ht using hls
  refine ⟨ls.map fun p => (p.1, p.2.1, (e p).data), ?_, ?_⟩
  · rw [List.flatMap_map]
    have : (ls.flatMap fun p => atTime p.2.1 (eddyRows p.1 p.2.2)) =
        ls.flatMap fun p => atTime p.2.1 (eddyRows p.1 (tableRows (e p).data)) := by
      rw [List.flatMap_def, List.flatMap_def]
      congr 1
      refine List.map_congr_left fun p hp => ?_
      rw [hrow p hp]
      rfl
    rw [← this]
    exact hperm
  · intro p0 hp0 q0 hq0 htt hne hl
    obtain ⟨p, hp, rfl⟩ := List.mem_map.1 hp0
    obtain ⟨q, hq, rfl⟩ := List.mem_map.1 hq0
    simp only at htt hne hl ⊢
    have sp := examine_stored.1 (hst p hp)
    have sq := examine_stored.1 (hst q hq)
    obtain ⟨_, cp, _, _, stp⟩ := sp
    obtain ⟨_, cq, _, _, stq⟩ := sq
    have lp : (e p).data.level = some (lev p) := by simp only [EddyObj.data, stp.lev]
    have lq : (e q).data.level = some (lev q) := by simp only [EddyObj.data, stq.lev]
    have vp := hvs p hp
    have vq := hvs q hq
    rw [← htt] at vq
    obtain ⟨_, ep, cpe, hvp⟩ := contourList_lines L (h _ (ht p hp)) (lev p)
    obtain ⟨_, eq, cqe, hvq⟩ := contourList_lines L (h _ (ht p hp)) (lev q)
    rw [hvp] at vp
    rw [hvq] at vq
    obtain ⟨es, hes, hes'⟩ := List.mem_map.1 vp
    obtain ⟨es2, hes2, hes2'⟩ := List.mem_map.1 vq
    refine ⟨(e p).contour, (e q).contour, rfl, rfl, ?_⟩
    rw [← cp, ← cq, ← hes', ← hes2']
    by_cases hll : lev p = lev q
    · have hmiss : (field p.2.1).grid.Misses (lev p) := by
        rcases hl with hl | hl
        · exact absurd (by rw [lp, lq, hll]) hl
        · exact hl _ lp
      have hvv : vs p ≠ vs q := by
        intro hv
        have h1 := hst p hp
        have h2 := hst q hq
        rw [hv, hll, htt, h2] at h1
        injection h1 with h1
        injection h1 with h1
        exact hne (by rw [h1])
      rw [← hes', ← hes2'] at hvv
      rw [← hll] at hes2' hvv hvq ⊢
      rw [hvp] at hvq
      have hes3 : es2.map ((field p.2.1).grid.point (lev p)) ∈ ep.map fun es => es.map ((field p.2.1).grid.point (lev p)) := by
        rw [hvq]; exact List.mem_map.2 ⟨es2, hes2, rfl⟩
      obtain ⟨es3, hes3, hes3'⟩ := List.mem_map.1 hes3
      rw [← hes3'] at hvv ⊢
      obtain ⟨m, hm⟩ := List.getElem?_of_mem hes
      obtain ⟨m', hm'⟩ := List.getElem?_of_mem hes3
      refine Crossing.lines_apart (hG _ (ht p hp)) hmiss cpe ?_ hm hm'
      rintro rfl
      rw [hm] at hm'
      cases hm'
      exact hvv rfl
    · exact Crossing.lines_levels (hG _ (ht p hp)) hll (cpe.each _ hes) (cqe.each _ hes2)

/-- the hypotheses hold for the map of the example, whose table is not empty and whose level is not a value of the data -/
example : ∃ (nn : List (ℝ × ℝ) → ℝ × ℝ → Nat) (s : LoopState Cols),
    IsNN (colsEnv true nn).dist (colsEnv true nn).nn ∧ (∀ t ∈ trackTimes 0 none 1, ((fun _ => exField) t : Fields).Ok) ∧
    (∀ t ∈ trackTimes 0 none 1, ((fun _ => exField) t : Fields).grid.Rect) ∧ exField.grid.Misses (1 / 2) ∧
    (trackFields (colsEnv true nn) exCriteria exLibs (fun _ => exField) [1 / 2] 0 none 1 1 true Regs.empty).2 = .ok s ∧
    s.table.rows ≠ [] := by
  obtain ⟨nn, s, h1, h2, h3, h4, h5⟩ := exPipeline
  refine ⟨nn, s, h1, fun t ht => (h2 t ht).1, fun t ht => ?_, ?_, h4, h5⟩
  · refine ⟨fun i => ([0, 1, 2, 3] : List ℝ).getD i 0, fun j => ([0, 1, 2] : List ℝ).getD j 0, fun _ _ _ _ => ⟨rfl, rfl⟩, Or.inl ?_, Or.inl ?_⟩
    · intro i j hij hj
      have hj : j < 4 := hj
      simp only
      rw [exAxis4 hj, exAxis4 (by omega)]
      exact Nat.cast_lt.2 hij
    · intro i j hij hj
      have hj : j < 3 := hj
      simp only
      rw [exAxis3 hj, exAxis3 (by omega)]
      exact Nat.cast_lt.2 hij
  · intro i j hi hj h
    have hi : i < 4 := hi
    have hj : j < 3 := hj
    have h : (if j < 3 ∧ i < 4 then some (if j = 1 ∧ (i = 1 ∨ i = 2) then (1 : ℝ) else 0) else none) = some (1 / 2) := h
    rw [if_pos ⟨hj, hi⟩, Option.some.injEq] at h
    split_ifs at h <;> norm_num at h

end Trackeddy
