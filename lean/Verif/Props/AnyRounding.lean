import Verif.Spec.AnyRounding
import Verif.Proofs.Cntr.AnySim
import Verif.Proofs.Cntr.TracedUnique
import Verif.Props.RoundedContours

/-!
C136: contours computed with rounding, saddle cells near the level included.
-/
namespace Trackeddy

open Cntr Spec

variable {K : Type} [Field K] [LinearOrder K] [IsStrictOrderedRing K]

theorem frac_nat {a b : ℕ} {w w' : K} (h0 : 0 < w) (h1 : w < 1) (h0' : 0 < w') (h1' : w' < 1) (h : (a : K) + w = b + w') : a = b := by
  have l1 : (a : K) < ((b + 1 : ℕ) : K) := by push_cast; linarith
  have l2 : (b : K) < ((a + 1 : ℕ) : K) := by push_cast; linarith
  rw [Nat.cast_lt] at l1 l2
  omega

theorem frac_ne {a b : ℕ} {w : K} (h0 : 0 < w) (h1 : w < 1) (h : (a : K) + w = b) : False := by
  have l1 : (a : K) < (b : K) := by linarith
  have l2 : (b : K) < ((a + 1 : ℕ) : K) := by push_cast; linarith
  rw [Nat.cast_lt] at l1 l2
  omega

/-- columns and rows as coordinates -/
def colArr (r c : ℕ) : NdArr K := ⟨r, c, fun _ i => (i : K)⟩
def rowArr (r c : ℕ) : NdArr K := ⟨r, c, fun j _ => (j : K)⟩

section
variable {r c : ℕ} {f : ℕ → ℕ → K} {lev : K}

/-- the crossing point, when no value is at the level -/
theorem point_inside (hf : ∀ j i, f j i ≠ lev) {e : Side}
    (he : (arrGrid (colArr r c) (rowArr r c) ⟨r, c, fun j i => some (f j i)⟩ none).Crossed lev e) : ∃ w : K, 0 < w ∧ w < 1 ∧
      (arrGrid (colArr r c) (rowArr r c) ⟨r, c, fun j i => some (f j i)⟩ none).point lev e =
        some (if e.vert = true then ((e.i : K), (e.j : K) + w) else ((e.i : K) + w, (e.j : K))) := by
  set u := f e.a.2 e.a.1 with hu
  set v := f e.b.2 e.b.1 with hv
  have hc : ¬ (lev < u ↔ lev < v) := by
    simpa [Grid.Crossed, Grid.Above, arrGrid] using he
  have hu' : u ≠ lev := hf _ _
  have hv' : v ≠ lev := hf _ _
  refine ⟨(lev - u) / (v - u), ?_, ?_, ?_⟩
  · rcases lt_or_gt_of_ne hu' with g | g <;> rcases lt_or_gt_of_ne hv' with g' | g'
    · exact absurd ⟨fun h => absurd h (not_lt.mpr g.le), fun h => absurd h (not_lt.mpr g'.le)⟩ hc
    · exact div_pos (by linarith) (by linarith)
    · exact div_pos_of_neg_of_neg (by linarith) (by linarith)
    · exact absurd ⟨fun _ => g', fun _ => g⟩ hc
  · rcases lt_or_gt_of_ne hu' with g | g <;> rcases lt_or_gt_of_ne hv' with g' | g'
    · exact absurd ⟨fun h => absurd h (not_lt.mpr g.le), fun h => absurd h (not_lt.mpr g'.le)⟩ hc
    · rw [div_lt_one (by linarith)]; linarith
    · rw [div_lt_one_of_neg (by linarith)]; linarith
    · exact absurd ⟨fun _ => g', fun _ => g⟩ hc
  · unfold Grid.point
    simp only [arrGrid, colArr, rowArr, ← hu, ← hv]
    clear_value u v
    cases hvert : e.vert <;> simp [Side.a, Side.b, hvert]

/-- the crossing points tell the sides apart -/
theorem point_inj (hf : ∀ j i, f j i ≠ lev) {e e' : Side}
    (he : (arrGrid (colArr r c) (rowArr r c) ⟨r, c, fun j i => some (f j i)⟩ none).Crossed lev e)
    (he' : (arrGrid (colArr r c) (rowArr r c) ⟨r, c, fun j i => some (f j i)⟩ none).Crossed lev e')
    (h : (arrGrid (colArr r c) (rowArr r c) ⟨r, c, fun j i => some (f j i)⟩ none).point lev e =
      (arrGrid (colArr r c) (rowArr r c) ⟨r, c, fun j i => some (f j i)⟩ none).point lev e') : e = e' := by
  obtain ⟨w, w0, w1, hw⟩ := point_inside hf he
  obtain ⟨w', w0', w1', hw'⟩ := point_inside hf he'
  rw [hw, hw'] at h
  obtain ⟨i, j, v⟩ := e
  obtain ⟨i', j', v'⟩ := e'
  simp only [Option.some.injEq] at h
  cases v <;> cases v' <;> simp only [Bool.false_eq_true, if_false, if_true, Prod.mk.injEq] at h
  · obtain ⟨h1, h2⟩ := h
    rw [frac_nat w0 w1 w0' w1' h1, Nat.cast_injective h2]
  · exact (frac_ne w0 w1 h.1).elim
  · exact (frac_ne w0 w1 h.2).elim
  · obtain ⟨h1, h2⟩ := h
    rw [frac_nat w0 w1 w0' w1' h2, Nat.cast_injective h1]

end

theorem data_neg (Z : NdArr (Option K)) (X Y : NdArr K) (lev : K) (k : Int) :
    (meshOf X Y Z).high lev k = (meshOf X Y Z).high lev (k.toNat : Int) := by
  simp only [Mesh.high, meshOf, NdArr.data, Int.toNat_natCast]

theorem forall₂_mem_right {α β : Type} {R : α → β → Prop} {l : List α} {l' : List β} (h : List.Forall₂ R l l') {b : β} (hb : b ∈ l') :
    ∃ a ∈ l, R a b := by
  induction h with
  | nil => simp at hb
  | cons hab _ ih =>
    rcases List.mem_cons.mp hb with rfl | hb
    · exact ⟨_, List.mem_cons_self, hab⟩
    · obtain ⟨a, ha, h⟩ := ih hb
      exact ⟨a, List.mem_cons_of_mem _ ha, h⟩

/-- the computed contours and the data for which they are exact -/
theorem any_rounding [DecidableEq K] {X Y : NdArr K} {Z : NdArr (Option K)} (h : SameShape X Y Z none) (lev : K) (rnd : K → K) {fuel : ℕ}
    (mem : Cntr.Memory) (hf : bound Z ≤ fuel) : ∃ (f : ℕ → ℕ → K) (cs : List (List Side)) (parts : List (List (Option (K × K)))),
      SameSide lev Z ⟨Z.rows, Z.cols, fun j i => some (f j i)⟩ ∧
      Traced (arrGrid X Y ⟨Z.rows, Z.cols, fun j i => some (f j i)⟩ none) lev cs ∧
      traceR rnd (meshOf X Y Z) none lev fuel mem.data mem.saddle mem.reg = .ok (parts.map coded) ∧
      List.Forall₂ (List.Forall₂ fun s v => ∃ e : DE, (topoOf (meshOf X Y Z) none mem.reg lev).ex e = true ∧
        (topoOf (meshOf X Y Z) none mem.reg lev).cut e ∧ e.side = s ∧ v = vtxR rnd (meshOf X Y Z) lev e) cs parts := by
  have hneg := data_neg Z X Y lev
  obtain ⟨S, hS, hrun⟩ := traceRawR_any hneg none fuel mem.data mem.saddle mem.reg rnd (reg := none) rfl
  obtain ⟨f, hne, hgood⟩ := realise hneg hS
  set Z' : NdArr (Option K) := ⟨Z.rows, Z.cols, fun j i => some (f j i)⟩ with hZ'
  set X' : NdArr K := colArr Z.rows Z.cols with hX'
  set Y' : NdArr K := rowArr Z.rows Z.cols with hY'
  have hm : vary (meshOf X Y Z) X'.data Y'.data (fillArr (meshOf X Y Z) f) = meshOf X' Y' Z' := rfl
  have hg : Good (meshOf X Y Z) none lev S X'.data Y'.data (fillArr (meshOf X Y Z) f) := hgood _ _
  have hs1 : SameShape X Y Z' none := h
  have hs2 : SameShape X' Y' Z' none := ⟨rfl, rfl, by simp⟩
  obtain ⟨cs, hcs, hall⟩ := extract_same hs1 lev
  have hex := hall X' Y' Z' lev hs2 ⟨rfl, rfl, fun _ => rfl⟩ fuel mem hf
  -- the exact run on the other data
  obtain ⟨W, L, t, ht, g1, g2, _⟩ := traceRaw_spec (meshOf X' Y' Z') none lev mem.data mem.saddle mem.reg (fuel := fuel) hf
  obtain ⟨r, hr, hrun⟩ : ∃ r, traceRawR rnd (meshOf X Y Z) none lev fuel mem.data mem.saddle mem.reg = .ok r ∧
      List.Forall₂ (List.Forall₂ (Twin2 rnd (meshOf X Y Z) none lev X'.data Y'.data (fillArr (meshOf X Y Z) f)))
        (W.map fun w => (path t (L w) w).map (vtx (meshOf X' Y' Z') lev)) r := by
    rcases hrun with hrun | ⟨r, hr, hrun⟩
    · obtain ⟨er, he⟩ := hrun _ _ _ hg
      rw [hm, g1] at he
      cases he
    · obtain ⟨r0, h0, h1⟩ := hrun _ _ _ hg
      rw [hm, g1] at h0
      cases h0
      exact ⟨r, hr, h1⟩
  set r0 := W.map fun w => (path t (L w) w).map (vtx (meshOf X' Y' Z') lev) with hr0
  have hlen0 : ∀ p ∈ r0, 2 ≤ p.length := by
    intro p hp
    rw [hr0, List.mem_map] at hp
    obtain ⟨w, hw, rfl⟩ := hp
    rw [List.length_map, path_length]
    have := (g2 w hw).pos
    omega
  clear_value r0
  have hlen : ∀ p ∈ r, 2 ≤ p.length := by
    intro p hp
    obtain ⟨p0, hp0, hrel⟩ := forall₂_mem_right hrun hp
    rw [← hrel.length_eq]; exact hlen0 _ hp0
  have hE : trace (meshOf X' Y' Z') none lev fuel mem.data mem.saddle mem.reg = .ok (r0.map coded) := by
    unfold trace
    rw [g1]
    simp only [bind, Except.bind]
    exact mapM_ok _ coded _ fun p hp => reorder_zero p (hlen0 p hp)
  have hR : traceR rnd (meshOf X Y Z) none lev fuel mem.data mem.saddle mem.reg = .ok (r.map coded) := by
    unfold traceR
    rw [hr]
    simp only [bind, Except.bind]
    exact mapM_ok _ coded _ fun p hp => reorder_zero p (hlen p hp)
  unfold extractContours cntrTrace at hex
  rw [cntrInit_ok hs2] at hex
  simp only [Option.map_none, bind, Except.bind] at hex
  rw [hE] at hex
  simp only [pure, Except.pure] at hex
  rw [take_build, drop_build] at hex
  simp only [Except.ok.injEq, Prod.mk.injEq, List.map_map, pointArrays] at hex
  have e3 : r0 = cs.map fun es => es.map ((arrGrid X' Y' Z' none).point lev) := by
    have : r0.map (Item.points (K := K)) = (cs.map fun es => es.map ((arrGrid X' Y' Z' none).point lev)).map Item.points := by
      rw [List.map_map]
      refine Eq.trans ?_ hex.1
      apply List.map_congr_left
      intro l _
      simp only [Function.comp]
      rw [coded_fst]
    exact List.map_injective_iff.mpr (fun a b hab => by injection hab) this
  rw [e3, List.forall₂_map_left_iff] at hrun
  refine ⟨f, cs, r, ?_, hcs, hR, ?_⟩
  · refine ⟨rfl, rfl, fun j hj i hi => ⟨f j i, rfl, ?_⟩⟩
    have ha := hg.1 (idx Z.cols ((i : Int), (j : Int)))
    have e1 : (fillArr (meshOf X Y Z) f) (idx Z.cols ((i : Int), (j : Int))) = some (f j i) := fill_at (m := meshOf X Y Z) hi
    have e2 : (meshOf X Y Z).z (idx Z.cols ((i : Int), (j : Int))) = Z.get j i := by
      have := data_get Z (i, j) hi
      rw [← this]
      unfold idx
      congr 1
    unfold Mesh.high at ha
    rw [e2] at ha
    have ha' : (match (fillArr (meshOf X Y Z) f) (idx Z.cols ((i : Int), (j : Int))) with
        | some v => decide (lev < v) | none => false) = (match Z.get j i with | some v => decide (lev < v) | none => false) := ha
    rw [e1] at ha'
    clear ha
    rename' ha' => ha
    simp only at ha
    cases hz : Z.get j i with
    | none =>
      rw [hz] at ha
      right
      simp only [decide_eq_false_iff_not, not_lt] at ha
      exact ⟨lt_of_le_of_ne ha (hne j i), by simp⟩
    | some v =>
      rw [hz] at ha
      simp only [decide_eq_decide] at ha
      by_cases hv : lev < v
      · exact Or.inl ⟨ha.mpr hv, v, rfl, hv⟩
      · exact Or.inr ⟨lt_of_le_of_ne (not_lt.mp fun g => hv (ha.mp g)) (hne j i), by simpa using hv⟩
  · have hag := agree_mesh hs2
    have key : ∀ es ∈ cs, ∀ s ∈ es, ∀ v, Twin2 rnd (meshOf X Y Z) none lev X'.data Y'.data (fillArr (meshOf X Y Z) f)
        ((arrGrid X' Y' Z' none).point lev s) v → ∃ e : DE, (topoOf (meshOf X Y Z) none mem.reg lev).ex e = true ∧
        (topoOf (meshOf X Y Z) none mem.reg lev).cut e ∧ e.side = s ∧ v = vtxR rnd (meshOf X Y Z) lev e := by
      intro es hes s hs v ⟨e, k1, k2, k3, k4⟩
      refine ⟨e, k1, k2, ?_, k4⟩
      have hcut' : (topoOf (meshOf X' Y' Z') none mem.reg lev).cut e := (alike_cut hg.1).mpr k2
      have hex' : (topoOf (meshOf X' Y' Z') none mem.reg lev).ex e = true := k1
      obtain ⟨n0, n1⟩ := ex_nonneg (Or.inl hex')
      have hin : (gridOf (meshOf X' Y' Z') none).InMesh e.side := (side_inMesh n0 n1).mpr (Or.inl hex')
      have hcr : (gridOf (meshOf X' Y' Z') none).Crossed lev e.side := (side_crossed n0 n1).mpr hcut'
      have hin' := hin
      obtain ⟨c, c1, c2⟩ := hin'
      have hcr' : (arrGrid X' Y' Z' none).Crossed lev e.side := (hag.crossed c1 c2).mp hcr
      have hpt : vtx (meshOf X' Y' Z') lev e = (arrGrid X' Y' Z' none).point lev e.side :=
        (vtx_point n0 n1 hcut').trans (hag.point hin)
      obtain ⟨_, hcs2⟩ := contour_sides (hcs.lines.each es hes) hs
      exact point_inj hne hcr' hcs2 (by rw [← hpt]; exact k3.symm)
    clear hcs hall hex e3 hE hR hlen hlen0 hr g1 g2
    induction hrun with
    | nil => exact .nil
    | @cons es vs _ _ hd _ ih =>
      refine .cons ?_ (ih fun es' h' => key es' (List.mem_cons_of_mem _ h'))
      have k := key es List.mem_cons_self
      rw [List.forall₂_map_left_iff] at hd
      clear ih key
      induction hd with
      | nil => exact .nil
      | cons hx _ ih => exact .cons (k _ List.mem_cons_self _ hx) (ih fun s hs => k s (List.mem_cons_of_mem _ hs))

theorem sameSide_crossed {X Y : NdArr K} {Z Z' : NdArr (Option K)} {lev : K} (h : SameSide lev Z Z') {e : Side} :
    (arrGrid X Y Z' none).InMesh e ∧ (arrGrid X Y Z' none).Crossed lev e ↔
      (arrGrid X Y Z none).InMesh e ∧ (arrGrid X Y Z none).Crossed lev e := by
  obtain ⟨h1, h2, h3⟩ := h
  have hcell : ∀ c, (arrGrid X Y Z' none).IsCell c ↔ (arrGrid X Y Z none).IsCell c := by
    intro c; simp only [Grid.IsCell, arrGrid, h1, h2]
  have hin : (arrGrid X Y Z' none).InMesh e ↔ (arrGrid X Y Z none).InMesh e := by
    unfold Grid.InMesh; simp only [hcell]
  have habove : ∀ p : ℕ × ℕ, p.1 < Z.cols → p.2 < Z.rows → ((arrGrid X Y Z' none).Above lev p ↔ (arrGrid X Y Z none).Above lev p) := by
    intro p p1 p2
    obtain ⟨z, hz, hh⟩ := h3 p.2 p2 p.1 p1
    simp only [Grid.Above, arrGrid, hz, Option.some.injEq, exists_eq_left']
    rcases hh with ⟨a, b⟩ | ⟨a, b⟩
    · exact ⟨fun _ => b, fun _ => a⟩
    · exact ⟨fun g => absurd g (not_lt.mpr a.le), fun g => absurd g b⟩
  rw [hin]
  refine and_congr_right fun ⟨c, c1, c2⟩ => ?_
  obtain ⟨⟨a1, a2⟩, ⟨b1, b2⟩⟩ := side_inside c1 c2
  unfold Grid.Crossed
  rw [habove _ a1 a2, habove _ b1 b2]

/-- what `extract_contours` returns for traced parts -/
theorem extractR_of_trace [DecidableEq K] {X Y : NdArr K} {Z : NdArr (Option K)} (h : SameShape X Y Z none) {lev : K} {rnd : K → K}
    {fuel : ℕ} {mem : Cntr.Memory} {parts : List (List (Option (K × K)))} {cs : List (List Side)}
    (ht : traceR rnd (meshOf X Y Z) none lev fuel mem.data mem.saddle mem.reg = .ok (parts.map coded))
    (hlen : parts.map List.length = cs.map List.length) :
    extractContoursR rnd X Y Z lev fuel mem = .ok (parts.map .points, codeArrays cs) := by
  unfold extractContoursR cntrTraceR
  rw [cntrInit_ok h]
  simp only [Option.map_none, bind, Except.bind]
  rw [ht]
  simp only [pure, Except.pure]
  rw [take_build, drop_build, List.map_map, List.map_map]
  congr 2
  · apply List.map_congr_left
    intro l _
    simp only [Function.comp]
    rw [coded_fst]
  · have g1 : parts.map ((fun p : List (Vertex K × Nat) => Item.codes (K := K) (p.map Prod.snd)) ∘ coded) =
        (parts.map List.length).map fun n => Item.codes (codes n) := by
      rw [List.map_map]
      apply List.map_congr_left
      intro l _
      simp only [Function.comp]
      rw [coded_snd]
      rfl
    rw [g1, hlen, List.map_map]
    rfl

theorem forall₂_lengths {α β : Type} {R : α → β → Prop} {a : List (List α)} {b : List (List β)} (h : List.Forall₂ (List.Forall₂ R) a b) :
    b.map List.length = a.map List.length := by
  induction h with
  | nil => rfl
  | cons hd _ ih => rw [List.map_cons, List.map_cons, ih, hd.length_eq]

/-- **C136** Contours computed with any rounding whatsoever: `extract_contours` terminates without reading or writing
outside its arrays. What it returns are, side by side, the contours that exact arithmetic gives for another map `Z'`
without missing values that lies on the same side of the level at every grid point; in particular every side of a cell
that is crossed by the level is on one contour, once, and there are as many path codes as vertices. -/
theorem C136_complete [DecidableEq K] {X Y : NdArr K} {Z : NdArr (Option K)} (h : SameShape X Y Z none) (lev : K) (rnd : K → K)
    (fuel : ℕ) (mem : Cntr.Memory) (hf : bound Z ≤ fuel) :
    ∃ (Z' : NdArr (Option K)) (cs : List (List Side)) (parts : List (List (Option (K × K)))), SameSide lev Z Z' ∧
      extractContours X Y Z' lev fuel mem = .ok (pointArrays (arrGrid X Y Z' none) lev cs, codeArrays cs) ∧
      Traced (arrGrid X Y Z' none) lev cs ∧
      extractContoursR rnd X Y Z lev fuel mem = .ok (parts.map .points, codeArrays cs) ∧
      parts.map List.length = cs.map List.length ∧
      (cs.flatMap body).Nodup ∧
      ∀ e, e ∈ cs.flatMap body ↔ (arrGrid X Y Z none).InMesh e ∧ (arrGrid X Y Z none).Crossed lev e := by
  obtain ⟨f, cs, parts, h1, h2, h3, h4⟩ := any_rounding h lev rnd mem hf
  have hl := forall₂_lengths h4
  obtain ⟨cs', t1, t2⟩ := extract_traced (X := X) (Y := Y) (Z := ⟨Z.rows, Z.cols, fun j i => some (f j i)⟩) h lev
  have hcs : cs' = cs := traced_unique t1 h2
  subst hcs
  exact ⟨_, cs', parts, h1, t2 fuel mem hf, h2, extractR_of_trace h h3 hl, hl, h2.lines.once,
    fun e => (h2.lines.all e).trans (sameSide_crossed h1)⟩

/-- **C136** Contours computed in floating point with relative error at most `u`, without any condition on the saddle
cells: there are sequences of sides, those of the exact contours of a map on the same side of the level everywhere, such
that the vertices returned are next to the points in which the level crosses these sides on the given map; every crossed
side occurs once. -/
theorem C136_near [DecidableEq K] {X Y : NdArr K} {Z : NdArr (Option K)} (h : SameShape X Y Z none) {u : K} (lev : K) (h0 : 0 ≤ u)
    (h1 : u ≤ 1 / 100) {rnd : K → K} (hr : RoundsTo u rnd) (fuel : ℕ) (mem : Cntr.Memory) (hf : bound Z ≤ fuel) :
    ∃ (Z' : NdArr (Option K)) (cs : List (List Side)) (parts : List (List (Option (K × K)))), SameSide lev Z Z' ∧
      Traced (arrGrid X Y Z' none) lev cs ∧
      extractContoursR rnd X Y Z lev fuel mem = .ok (parts.map .points, codeArrays cs) ∧
      (cs.flatMap body).Nodup ∧
      (∀ e, e ∈ cs.flatMap body ↔ (arrGrid X Y Z none).InMesh e ∧ (arrGrid X Y Z none).Crossed lev e) ∧
      List.Forall₂ (fun es vs => List.Forall₂ (VertexNear (arrGrid X Y Z none) lev u)
        (es.map ((arrGrid X Y Z none).point lev)) vs) cs parts := by
  obtain ⟨f, cs, parts, g1, g2, g3, g4⟩ := any_rounding h lev rnd mem hf
  refine ⟨_, cs, parts, g1, g2, extractR_of_trace h g3 (forall₂_lengths g4), g2.lines.once,
    fun e => (g2.lines.all e).trans (sameSide_crossed g1), ?_⟩
  have hag := agree_mesh h
  refine g4.imp fun es vs hev => ?_
  rw [List.forall₂_map_left_iff]
  refine hev.imp fun s v hsv => ?_
  obtain ⟨e, hex, hcut, rfl, rfl⟩ := hsv
  have htw : Twin rnd (meshOf X Y Z) lev (topoOf (meshOf X Y Z) none mem.reg lev) (vtx (meshOf X Y Z) lev e)
      (vtxR rnd (meshOf X Y Z) lev e) := ⟨e, hex, hcut, rfl, rfl⟩
  obtain ⟨n0, n1⟩ := ex_nonneg (Or.inl hex)
  have hpt : vtx (meshOf X Y Z) lev e = (arrGrid X Y Z none).point lev e.side :=
    (vtx_point n0 n1 hcut).trans (hag.point ((side_inMesh n0 n1).mpr (Or.inl hex)))
  rw [← hpt]
  exact near_agree hag (near_of_twin h0 h1 hr htw)

/-- a saddle cell that doubles decide differently from exact arithmetic -/
def exTie : NdArr (Option ℚ) := ⟨2, 2, fun j i => some (if i = j then 2 ^ 53 else 1)⟩

/-- the map of `C134_refuted_contours`, in doubles: two contours from side to side, other pairs than with exact arithmetic -/
example : ∃ (Z' : NdArr (Option ℚ)) (cs : List (List Side)) (parts : List (List (Option (ℚ × ℚ)))), SameSide (2 ^ 52) exTie Z' ∧
      Traced (arrGrid exSadX exSadY Z' none) (2 ^ 52) cs ∧
      extractContoursR double exSadX exSadY exTie (2 ^ 52) (bound exTie) exMem = .ok (parts.map .points, codeArrays cs) ∧
      (cs.flatMap body).Nodup ∧
      (∀ e, e ∈ cs.flatMap body ↔ (arrGrid exSadX exSadY exTie none).InMesh e ∧ (arrGrid exSadX exSadY exTie none).Crossed (2 ^ 52) e) ∧
      List.Forall₂ (fun es vs => List.Forall₂ (VertexNear (arrGrid exSadX exSadY exTie none) (2 ^ 52) ((1 / 2) ^ 53))
        (es.map ((arrGrid exSadX exSadY exTie none).point (2 ^ 52))) vs) cs parts :=
  C136_near ⟨rfl, rfl, by simp⟩ _ (by norm_num) (by norm_num) double_roundsTo _ _ le_rfl

/-- what they are -/
example : extractContoursR double exSadX exSadY exTie (2 ^ 52) 18 exMem = .ok
    ([.points [some (4503599627370497 / 9007199254740992, 0), some (0, 1 / 2)],
      .points [some (1, 9007199254740991 / 18014398509481984), some (4503599627370495 / 9007199254740992, 1)]],
      [.codes [1, 2], .codes [1, 2]]) := by
  decide +kernel

/-- rounding to whole numbers, on a map with a missing value: still two contours through the four crossed sides -/
example : extractContoursR (fun x : ℚ => (⌊x⌋ : ℚ)) exSadX exSadY ⟨2, 2, fun j i => if i = j then some (3 - j) else if i = 0 then none else some 0⟩
    1 18 exMem = .ok ([.points [some (0, 0), none], .points [some (1, 0), none]], [.codes [1, 2], .codes [1, 2]]) := by
  decide +kernel

end Trackeddy
