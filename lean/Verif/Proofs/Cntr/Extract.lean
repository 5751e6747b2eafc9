import Verif.Proofs.Cntr.Lines
import Verif.Spec.Extract

/-!
Contour extraction on arrays.
-/
namespace Trackeddy.Cntr
open Trackeddy.Spec

variable {K : Type} [Field K] [LinearOrder K]

/-- two grids with the same content -/
structure Agree (G H : Grid K) : Prop where
  nx : G.nx = H.nx
  ny : G.ny = H.ny
  x : ∀ p : ℕ × ℕ, p.1 < G.nx → p.2 < G.ny → G.x p = H.x p
  y : ∀ p : ℕ × ℕ, p.1 < G.nx → p.2 < G.ny → G.y p = H.y p
  z : ∀ p : ℕ × ℕ, p.1 < G.nx → p.2 < G.ny → G.z p = H.z p
  masked : ∀ p : ℕ × ℕ, p.1 < G.nx → p.2 < G.ny → G.masked p = H.masked p

theorem Agree.symm {G H : Grid K} (h : Agree G H) : Agree H G :=
  ⟨h.nx.symm, h.ny.symm, fun p a b => (h.x p (h.nx ▸ a) (h.ny ▸ b)).symm, fun p a b => (h.y p (h.nx ▸ a) (h.ny ▸ b)).symm,
    fun p a b => (h.z p (h.nx ▸ a) (h.ny ▸ b)).symm, fun p a b => (h.masked p (h.nx ▸ a) (h.ny ▸ b)).symm⟩

theorem Agree.isCell {G H : Grid K} (h : Agree G H) {c : ℕ × ℕ} (hc : G.IsCell c) : H.IsCell c := by
  obtain ⟨h1, h2, h3⟩ := hc
  refine ⟨h.nx ▸ h1, h.ny ▸ h2, fun p hp => ?_⟩
  rw [← h.masked p]
  · exact h3 p hp
  · simp only [cornersOf, List.mem_cons, List.not_mem_nil, or_false] at hp
    rcases hp with rfl | rfl | rfl | rfl <;> simp only <;> omega
  · simp only [cornersOf, List.mem_cons, List.not_mem_nil, or_false] at hp
    rcases hp with rfl | rfl | rfl | rfl <;> simp only <;> omega

theorem Agree.isCell_iff {G H : Grid K} (h : Agree G H) {c : ℕ × ℕ} : G.IsCell c ↔ H.IsCell c := ⟨h.isCell, h.symm.isCell⟩

theorem side_inside {G : Grid K} {c : ℕ × ℕ} (hc : G.IsCell c) {e : Side} (he : e ∈ sidesOf c) :
    (e.a.1 < G.nx ∧ e.a.2 < G.ny) ∧ (e.b.1 < G.nx ∧ e.b.2 < G.ny) := by
  obtain ⟨h1, h2, _⟩ := hc
  simp only [sidesOf, List.mem_cons, List.not_mem_nil, or_false] at he
  rcases he with rfl | rfl | rfl | rfl <;> simp [Side.a, Side.b] <;> omega

theorem Agree.above {G H : Grid K} (h : Agree G H) {lev : K} {p : ℕ × ℕ} (hp : p.1 < G.nx ∧ p.2 < G.ny) :
    G.Above lev p ↔ H.Above lev p := by
  unfold Grid.Above
  rw [h.z p hp.1 hp.2]

theorem Agree.crossed {G H : Grid K} (h : Agree G H) {lev : K} {c : ℕ × ℕ} (hc : G.IsCell c) {e : Side} (he : e ∈ sidesOf c) :
    G.Crossed lev e ↔ H.Crossed lev e := by
  unfold Grid.Crossed
  rw [h.above (side_inside hc he).1, h.above (side_inside hc he).2]

theorem Agree.inMesh {G H : Grid K} (h : Agree G H) {e : Side} : G.InMesh e ↔ H.InMesh e := by
  unfold Grid.InMesh
  simp only [h.isCell_iff]

theorem Agree.border {G H : Grid K} (h : Agree G H) {e : Side} : G.Border e ↔ H.Border e := by
  unfold Grid.Border
  simp only [h.isCell_iff]

theorem Agree.joined {G H : Grid K} (h : Agree G H) {lev : K} {e e' : Side} (hj : G.Joined lev e e') : H.Joined lev e e' := by
  obtain ⟨c, hc, h1, h2, h3, h4, h5, h6⟩ := hj
  refine ⟨c, h.isCell hc, h1, h2, h3, (h.crossed hc h1).mp h4, (h.crossed hc h2).mp h5, fun hall => ?_⟩
  obtain ⟨p, p1, p2, p3⟩ := h6 fun s hs => (h.crossed hc hs).mpr (hall s hs)
  refine ⟨p, p1, p2, ?_⟩
  have hp : p.1 < G.nx ∧ p.2 < G.ny := by
    rcases p1 with rfl | rfl
    · exact (side_inside hc h1).1
    · exact (side_inside hc h1).2
  rw [← h.above hp, p3]
  obtain ⟨g1, g2, _⟩ := hc
  unfold Grid.CentreAbove
  rw [h.z (c.1, c.2) (by simp only; omega) (by simp only; omega), h.z (c.1 + 1, c.2) (by simp only; omega) (by simp only; omega),
    h.z (c.1, c.2 + 1) (by simp only; omega) (by simp only; omega), h.z (c.1 + 1, c.2 + 1) (by simp only; omega) (by simp only; omega)]

theorem Agree.point {G H : Grid K} (h : Agree G H) {lev : K} {e : Side} (he : G.InMesh e) : G.point lev e = H.point lev e := by
  obtain ⟨c, hc, hs⟩ := he
  obtain ⟨⟨a1, a2⟩, ⟨b1, b2⟩⟩ := side_inside hc hs
  unfold Grid.point
  rw [h.z _ a1 a2, h.z _ b1 b2, h.x _ a1 a2, h.x _ b1 b2, h.y _ a1 a2, h.y _ b1 b2]

theorem Agree.contours {G H : Grid K} (h : Agree G H) {lev : K} {cs : List (List Side)} (hc : Contours G lev cs) :
    Contours H lev cs := by
  refine ⟨fun es hes => ?_, hc.once, fun e => ?_⟩
  · obtain ⟨h1, h2, h3, h4⟩ := hc.each es hes
    refine ⟨h1, h2.imp fun _ _ => h.joined, h3, ?_⟩
    simpa only [h.border] using h4
  · rw [hc.all e]
    constructor
    · rintro ⟨⟨c, c1, c2⟩, h2⟩
      exact ⟨⟨c, h.isCell c1, c2⟩, (h.crossed c1 c2).mp h2⟩
    · rintro ⟨⟨c, c1, c2⟩, h2⟩
      exact ⟨⟨c, h.symm.isCell c1, c2⟩, (h.symm.crossed c1 c2).mp h2⟩

theorem Agree.leftAbove {G H : Grid K} (h : Agree G H) {lev : K} {c : ℕ × ℕ} (hc : G.IsCell c) {e : Side} (he : e ∈ sidesOf c) :
    G.LeftAbove lev e c ↔ H.LeftAbove lev e c := by
  unfold Grid.LeftAbove
  rw [h.above (side_inside hc he).1, h.above (side_inside hc he).2]

theorem Agree.highLeft {G H : Grid K} (h : Agree G H) {lev : K} {es : List Side} : G.HighLeft lev es ↔ H.HighLeft lev es := by
  constructor
  · rintro ⟨e, f, c, h1, h2, h3, h4, h5, h6⟩
    exact ⟨e, f, c, h1, h2, h.isCell h3, h4, h5, (h.leftAbove h3 h4).mp h6⟩
  · rintro ⟨e, f, c, h1, h2, h3, h4, h5, h6⟩
    exact ⟨e, f, c, h1, h2, h.symm.isCell h3, h4, h5, (h.symm.leftAbove h3 h4).mp h6⟩

/-- the sides of a contour belong to the mesh and are crossed -/
theorem contour_sides {G : Grid K} {lev : K} {es : List Side} (h : G.IsContour lev es) {e : Side} (he : e ∈ es) :
    G.InMesh e ∧ G.Crossed lev e := by
  obtain ⟨h1, h2, _⟩ := h
  obtain ⟨k, hk, rfl⟩ := List.getElem_of_mem he
  rw [List.isChain_iff_getElem] at h2
  by_cases hlt : k + 1 < es.length
  · obtain ⟨c, hc, s1, _, _, s4, _⟩ := h2 k hlt
    exact ⟨⟨c, hc, s1⟩, s4⟩
  · obtain ⟨j, rfl⟩ : ∃ j, k = j + 1 := ⟨k - 1, by omega⟩
    obtain ⟨c, hc, _, s2, _, _, s5, _⟩ := h2 j (by omega)
    exact ⟨⟨c, hc, s2⟩, s5⟩

/-- a side of two cells that is not at the border lies in the interior -/
theorem inner_side {G : Grid K} {e : Side} (hm : G.InMesh e) (hb : ¬ G.Border e) (hv : e.vert = true) :
    0 < e.i ∧ e.i + 1 < G.nx ∧ e.j + 1 < G.ny := by
  obtain ⟨c, hc, he⟩ := hm
  obtain ⟨i, j, v⟩ := e
  simp only at hv
  subst hv
  have : ∃ d, G.IsCell d ∧ (⟨i, j, true⟩ : Side) ∈ sidesOf d ∧ d ≠ c := by
    by_contra hcon
    push Not at hcon
    exact hb ⟨c, ⟨hc, he⟩, fun d hd => hcon d hd.1 hd.2⟩
  obtain ⟨d, hd, hed, hne⟩ := this
  obtain ⟨c1, c2⟩ := c
  obtain ⟨d1, d2⟩ := d
  obtain ⟨a1, a2, _⟩ := hc
  obtain ⟨b1, b2, _⟩ := hd
  simp only [sidesOf, List.mem_cons, List.not_mem_nil, or_false, Side.mk.injEq, Bool.false_eq_true, Bool.true_eq_false, and_false, and_true, false_or, ne_eq,
    Prod.mk.injEq] at *
  omega

theorem Agree.start {G H : Grid K} (h : Agree G H) {lev : K} {e : Side} (hm : G.InMesh e) (hb : ¬ G.Border e) :
    G.Start lev e ↔ H.Start lev e := by
  unfold Grid.Start
  by_cases hv : e.vert = true
  · obtain ⟨h1, h2, h3⟩ := inner_side hm hb hv
    rw [h.above (p := (e.i, e.j + 1)) ⟨by simp only; omega, by simp only; omega⟩, h.above (p := (e.i, e.j)) ⟨by simp only; omega, by simp only; omega⟩,
      h.above (p := (e.i - 1, e.j + 1)) ⟨by simp only; omega, by simp only; omega⟩, h.above (p := (e.i + 1, e.j + 1)) ⟨by simp only; omega, by simp only; omega⟩,
      h.above (p := (e.i + 1, e.j)) ⟨by simp only; omega, by simp only; omega⟩]
  · simp [hv]

theorem Agree.possible {G H : Grid K} (h : Agree G H) {lev : K} {e : Side} (hm : G.InMesh e) :
    G.Start lev e ∨ G.Border e ↔ H.Start lev e ∨ H.Border e := by
  rw [← h.border]
  by_cases hb : G.Border e
  · simp [hb]
  · rw [h.start hm hb]

theorem Agree.first {G H : Grid K} (h : Agree G H) {lev : K} {es : List Side} (hc : G.IsContour lev es) {e : Side} :
    G.First lev es e ↔ H.First lev es e := by
  unfold Grid.First
  constructor
  · intro hf f h1 h2 h3
    exact hf f h1 h2 ((h.possible (contour_sides hc h1).1).mpr h3)
  · intro hf f h1 h2 h3
    exact hf f h1 h2 ((h.possible (contour_sides hc h1).1).mp h3)

theorem Agree.traced {G H : Grid K} (h : Agree G H) {lev : K} {cs : List (List Side)} (hc : Traced G lev cs) :
    Traced H lev cs := by
  refine ⟨h.contours hc.lines, fun es hes hcl => ?_, fun es hes hop => ?_, hc.order⟩
  · obtain ⟨h1, e, h2, h3, h4⟩ := hc.closed es hes hcl
    have he : e ∈ es := List.mem_of_mem_head? h2
    have hin : ∀ f ∈ es, (G.Start lev f ↔ H.Start lev f) := fun f hf =>
      h.start (contour_sides (hc.lines.each es hes) hf).1 (closed_not_border (hc.lines.each es hes) ((List.nodup_flatMap.mp hc.lines.once).1 es hes) hcl hf)
    exact ⟨h.highLeft.mp h1, e, h2, (hin e he).mp h3, fun f hf hne hs => h4 f hf hne ((hin f hf).mpr hs)⟩
  · have hf : ∀ e, (G.First lev es e ↔ H.First lev es e) := fun e => h.first (hc.lines.each es hes)
    simpa only [h.highLeft, hf] using hc.opened es hes hop

/-- the mesh made of the arrays -/
def meshOf (X Y : NdArr K) (Z : NdArr (Option K)) : Mesh K := ⟨Z.cols, Z.rows, X.data, Y.data, Z.data⟩

theorem data_get {α : Type} (a : NdArr α) (p : ℕ × ℕ) (hp : p.1 < a.cols) :
    a.data ((p.1 + p.2 * a.cols : ℕ) : Int) = a.get p.2 p.1 := by
  unfold NdArr.data
  simp only [Int.toNat_natCast]
  rw [Nat.add_mul_div_right _ _ (by omega), Nat.add_mul_mod_self_right, Nat.div_eq_of_lt hp, Nat.mod_eq_of_lt hp, Nat.zero_add]

theorem agree_mesh {X Y : NdArr K} {Z : NdArr (Option K)} {mask : Option (NdArr Bool)} (h : SameShape X Y Z mask) :
    Agree (gridOf (meshOf X Y Z) (mask.map fun M k => M.data k)) (arrGrid X Y Z mask) := by
  obtain ⟨h1, h2, h3⟩ := h
  simp only [Prod.mk.injEq] at h1 h2 h3
  refine ⟨rfl, rfl, fun p hp _ => ?_, fun p hp _ => ?_, fun p hp _ => ?_, fun p hp _ => ?_⟩
  · show X.data ((p.1 + p.2 * Z.cols : ℕ) : Int) = X.get p.2 p.1
    rw [← h1.2]; exact data_get X p (by rw [h1.2]; exact hp)
  · show Y.data ((p.1 + p.2 * Z.cols : ℕ) : Int) = Y.get p.2 p.1
    rw [← h2.2]; exact data_get Y p (by rw [h2.2]; exact hp)
  · exact data_get Z p hp
  · cases mask with
    | none => rfl
    | some M =>
      show M.data ((p.1 + p.2 * Z.cols : ℕ) : Int) = M.get p.2 p.1
      have := (h3 M rfl).2
      rw [← this]; exact data_get M p (by rw [this]; exact hp)

theorem cntrInit_ok {X Y : NdArr K} {Z : NdArr (Option K)} {mask : Option (NdArr Bool)} (h : SameShape X Y Z mask) :
    cntrInit X Y Z mask = .ok (meshOf X Y Z, mask.map fun M k => M.data k) := by
  obtain ⟨h1, h2, h3⟩ := h
  simp only [Prod.mk.injEq] at h1 h2 h3
  unfold cntrInit meshOf
  cases mask with
  | none => simp [h1.1, h1.2, h2.1, h2.2]
  | some M => simp [h1.1, h1.2, h2.1, h2.2, (h3 M rfl).1, (h3 M rfl).2]

theorem cntrInit_bad {X Y : NdArr K} {Z : NdArr (Option K)} {mask : Option (NdArr Bool)} (h : ¬ SameShape X Y Z mask) :
    cntrInit X Y Z mask = .error .valueError := by
  unfold cntrInit
  cases mask with
  | none =>
    simp only [ite_eq_left_iff, reduceCtorEq, imp_false, not_not, SameShape, Prod.mk.injEq, false_implies, implies_true, and_true,
      Bool.or_false, Bool.or_eq_true, decide_eq_true_eq] at h ⊢
    omega
  | some M =>
    simp only [ite_eq_left_iff, reduceCtorEq, imp_false, not_not, SameShape, Prod.mk.injEq, Option.some.injEq, forall_eq',
      Bool.or_eq_true, decide_eq_true_eq] at h ⊢
    omega

theorem buildList_eq (G : Grid K) (lev : K) (cs : List (List Side)) :
    buildList (cs.map fun es => (es.map (G.point lev)).zip (codes es.length)) = pointArrays G lev cs ++ codeArrays cs := by
  unfold buildList pointArrays codeArrays
  rw [List.map_map, List.map_map]
  congr 1
  · apply List.map_congr_left
    intro es _
    simp only [Function.comp, Item.points.injEq]
    rw [List.map_fst_zip (by simp [codes])]
  · apply List.map_congr_left
    intro es _
    simp only [Function.comp, Item.codes.injEq]
    rw [List.map_snd_zip (by simp [codes])]

theorem codeArrays_length (cs : List (List Side)) : (codeArrays (K := K) cs).length = cs.length := by simp [codeArrays]
theorem pointArrays_length (G : Grid K) (lev : K) (cs : List (List Side)) : (pointArrays G lev cs).length = cs.length := by
  simp [pointArrays]

/-- equal topology of two data sets -/
def SameTopo {K' : Type} [Field K'] [LinearOrder K'] (X Y : NdArr K) (Z : NdArr (Option K)) (mask : Option (NdArr Bool)) (lev : K)
    (X' Y' : NdArr K') (Z' : NdArr (Option K')) (mask' : Option (NdArr Bool)) (lev' : K') : Prop :=
  Z'.cols = Z.cols ∧ Z'.rows = Z.rows ∧ ∀ rjunk, topoOf (meshOf X' Y' Z') (mask'.map fun M k => M.data k) rjunk lev' =
    topoOf (meshOf X Y Z) (mask.map fun M k => M.data k) rjunk lev

theorem cntr_same [DecidableEq K] {X Y : NdArr K} {Z : NdArr (Option K)} {mask : Option (NdArr Bool)} (h : SameShape X Y Z mask)
    (lev : K) :
    ∃ cs, Traced (arrGrid X Y Z mask) lev cs ∧ ∀ {K' : Type} [Field K'] [LinearOrder K'] [DecidableEq K']
      (X' Y' : NdArr K') (Z' : NdArr (Option K')) (mask' : Option (NdArr Bool)) (lev' : K'), SameShape X' Y' Z' mask' → SameTopo X Y Z mask lev X' Y' Z' mask' lev' → 
      ∀ fuel mem, bound Z ≤ fuel → cntrTrace X' Y' Z' mask' lev' fuel mem =
        .ok (pointArrays (arrGrid X' Y' Z' mask') lev' cs ++ codeArrays cs) := by
  obtain ⟨cs, hcs, hall⟩ := trace_same (meshOf X Y Z) (mask.map fun M k => M.data k) lev
  refine ⟨cs, (agree_mesh h).traced hcs, ?_⟩
  intro K' _ _ _ X' Y' Z' mask' lev' h' ht fuel mem hfuel
  unfold cntrTrace
  rw [cntrInit_ok h']
  simp only [bind, Except.bind]
  rw [hall (meshOf X' Y' Z') (mask'.map fun M k => M.data k) lev' fuel mem.data mem.saddle mem.reg ht.1 ht.2.1 (ht.2.2 _) hfuel]
  simp only
  rw [buildList_eq]
  congr 2
  unfold pointArrays
  apply List.map_congr_left
  intro es hes
  congr 1
  apply List.map_congr_left
  intro e he
  apply (agree_mesh h').point
  obtain ⟨⟨c, hc, hs⟩, _⟩ := contour_sides (hcs.lines.each es hes) he
  refine ⟨c, ?_, hs⟩
  have hz : ∀ i j, (topoOf (meshOf X' Y' Z') (mask'.map fun M k => M.data k) (fun _ => false) lev').zone i j =
      (topoOf (meshOf X Y Z) (mask.map fun M k => M.data k) (fun _ => false) lev).zone i j := by
    intro i j; rw [ht.2.2]
  have h1 := (zone_iff (m := meshOf X' Y' Z') (mask := mask'.map fun M k => M.data k) (rjunk := fun _ => false) (lev := lev')
    (c.1 + 1) (c.2 + 1))
  have h2 := (zone_iff (m := meshOf X Y Z) (mask := mask.map fun M k => M.data k) (rjunk := fun _ => false) (lev := lev)
    (c.1 + 1) (c.2 + 1))
  rw [hz, h2] at h1
  have e1 : ((c.1 : Int) + 1).toNat - 1 = c.1 := by omega
  have e2 : ((c.2 : Int) + 1).toNat - 1 = c.2 := by omega
  rw [e1, e2] at h1
  exact (h1.mp ⟨by omega, by omega, hc⟩).2.2

theorem sameTopo_refl (X Y : NdArr K) (Z : NdArr (Option K)) (mask : Option (NdArr Bool)) (lev : K) :
    SameTopo X Y Z mask lev X Y Z mask lev := ⟨rfl, rfl, fun _ => rfl⟩

/-- the result of the tracer on arrays -/
theorem cntr_result [DecidableEq K] {X Y : NdArr K} {Z : NdArr (Option K)} {mask : Option (NdArr Bool)} (h : SameShape X Y Z mask)
    (lev : K) :
    ∃ cs, Contours (arrGrid X Y Z mask) lev cs ∧ ∀ fuel mem, bound Z ≤ fuel → cntrTrace X Y Z mask lev fuel mem =
        .ok (pointArrays (arrGrid X Y Z mask) lev cs ++ codeArrays cs) := by
  obtain ⟨cs, h1, h2⟩ := cntr_same h lev
  exact ⟨cs, h1.lines, h2 X Y Z mask lev h (sameTopo_refl _ _ _ _ _)⟩

theorem extract_same [DecidableEq K] {X Y : NdArr K} {Z : NdArr (Option K)} (h : SameShape X Y Z none) (lev : K) :
    ∃ cs, Traced (arrGrid X Y Z none) lev cs ∧ ∀ {K' : Type} [Field K'] [LinearOrder K'] [DecidableEq K']
      (X' Y' : NdArr K') (Z' : NdArr (Option K')) (lev' : K'), SameShape X' Y' Z' none → SameTopo X Y Z none lev X' Y' Z' none lev' → ∀ fuel mem, bound Z ≤ fuel →
      extractContours X' Y' Z' lev' fuel mem = .ok (pointArrays (arrGrid X' Y' Z' none) lev' cs, codeArrays cs) := by
  obtain ⟨cs, h1, h2⟩ := cntr_same h lev
  refine ⟨cs, h1, fun {K'} _ _ _ X' Y' Z' lev' h' ht fuel mem hf => ?_⟩
  unfold extractContours
  rw [h2 X' Y' Z' none lev' h' ht fuel mem hf]
  simp only [bind, Except.bind, pure, Except.pure]
  have hl : (pointArrays (arrGrid X' Y' Z' none) lev' cs ++ codeArrays cs).length / 2 =
      (pointArrays (arrGrid X' Y' Z' none) lev' cs).length := by
    rw [List.length_append, pointArrays_length, codeArrays_length]; omega
  rw [hl, List.take_left, List.drop_left]

theorem extract_traced [DecidableEq K] {X Y : NdArr K} {Z : NdArr (Option K)} (h : SameShape X Y Z none) (lev : K) :
    ∃ cs, Traced (arrGrid X Y Z none) lev cs ∧ ∀ fuel mem, bound Z ≤ fuel →
      extractContours X Y Z lev fuel mem = .ok (pointArrays (arrGrid X Y Z none) lev cs, codeArrays cs) := by
  obtain ⟨cs, h1, h2⟩ := extract_same h lev
  exact ⟨cs, h1, h2 X Y Z lev h (sameTopo_refl _ _ _ _ _)⟩

theorem extract_result [DecidableEq K] {X Y : NdArr K} {Z : NdArr (Option K)} (h : SameShape X Y Z none) (lev : K) :
    ∃ cs, Contours (arrGrid X Y Z none) lev cs ∧ ∀ fuel mem, bound Z ≤ fuel →
      extractContours X Y Z lev fuel mem = .ok (pointArrays (arrGrid X Y Z none) lev cs, codeArrays cs) := by
  obtain ⟨cs, h1, h2⟩ := extract_same h lev
  exact ⟨cs, h1.lines, h2 X Y Z lev h (sameTopo_refl _ _ _ _ _)⟩

end Trackeddy.Cntr
