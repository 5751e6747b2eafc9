import Verif.Proofs.Cntr.Rounded

/-!
The tracer with an arbitrary rounding. The turns taken in saddle cells are not those of the exact means, and which side a
cell is entered from first can matter. There are other data, on the same side of the level everywhere, for which the tracer
without rounding takes the same turns; so what is known about the latter carries over.
-/
namespace Trackeddy.Cntr

variable {K : Type} [Field K] [LinearOrder K] [IsStrictOrderedRing K]

/-- the mesh with other coordinates and values -/
def vary (m : Mesh K) (x y : Arr K) (Z : Arr (Option K)) : Mesh K := ⟨m.imax, m.jmax, x, y, Z⟩

/-- decisions once taken stay -/
def Ext (s s' : Arr (Option Bool)) : Prop := ∀ k b, s k = some b → s' k = some b

theorem Ext.refl (s : Arr (Option Bool)) : Ext s s := fun _ _ h => h
theorem Ext.trans {a b c : Arr (Option Bool)} (h : Ext a b) (h' : Ext b c) : Ext a c := fun k v hv => h' k v (h k v hv)

/-- a cell entered through the crossed edge `e` is a saddle -/
def IsSad (t : Topo) (e : DE) : Prop := t.ex e = true ∧ t.cut e ∧ t.h e.p0 = t.h e.q1 ∧ (!t.h e.p0) = t.h e.q0

/-- only saddle cells have been decided -/
def Sadl (m : Mesh K) (t : Topo) (s : Arr (Option Bool)) : Prop :=
  ∀ i j, InBox m.imax m.jmax (i, j) → s (idx m.imax (i, j)) ≠ none → ∃ e, IsSad t e ∧ e.zn = (i, j)

/-- the same side of the level everywhere -/
def Alike (m : Mesh K) (x y : Arr K) (Z : Arr (Option K)) (lev : K) : Prop := ∀ k, (vary m x y Z).high lev k = m.high lev k

theorem SadOK.of_ext {m : Mesh K} {t : Topo} {s s' : Arr (Option Bool)} (h : Ext s s') (hs : SadOK m t s') : SadOK m t s := by
  intro i j hb
  cases he : s (idx m.imax (i, j)) with
  | none => exact Or.inl rfl
  | some b =>
    right
    rcases hs i j hb with h1 | h1
    · rw [h _ _ he] at h1; cases h1
    · rw [h _ _ he] at h1; exact h1

section
variable {m : Mesh K} {reg : Option (Nat → Bool)} {lev : K}

theorem alike_h {x y : Arr K} {Z : Arr (Option K)} (ha : Alike m x y Z lev) (p : Int × Int) :
    (mkTopo (vary m x y Z) reg lev).h p = (mkTopo m reg lev).h p := ha _

theorem alike_cut {x y : Arr K} {Z : Arr (Option K)} (ha : Alike m x y Z lev) {e : DE} :
    (mkTopo (vary m x y Z) reg lev).cut e ↔ (mkTopo m reg lev).cut e := by
  unfold Topo.cut; rw [alike_h ha, alike_h ha]

theorem alike_link {x y : Arr K} {Z : Arr (Option K)} (ha : Alike m x y Z lev) {D : Arr Cell}
    (hl : Link m (mkTopo m reg lev) D) : Link (vary m x y Z) (mkTopo (vary m x y Z) reg lev) D :=
  ⟨fun p hp => by rw [alike_h ha]; exact hl.z p hp, hl.ib, hl.jb⟩

/-- the turn -/
def bend (c : Cross K) (g : Bool) (p0 p1 : Int) : Cross K := if g then bendForward c p1 else bendBackward c p0

omit [IsStrictOrderedRing K] in
theorem bend_fields (c : Cross K) (g : Bool) (p0 p1 : Int) : (bend c g p0 p1).data = c.data ∧ (bend c g p0 p1).saddle = c.saddle ∧
    ∀ q : List (Vertex K), bend { c with pts := q } g p0 p1 = { bend c g p0 p1 with pts := q } := by
  cases g <;> exact ⟨rfl, rfl, fun _ => rfl⟩

theorem saddleTurnR_val (rnd : K → K) {c : Cross K} {e : DE} (hat : At m c e) (hex : (mkTopo m reg lev).ex e = true) (z1 : Bool) :
    saddleTurnR rnd m lev c (idx m.imax e.p0) (idx m.imax e.p1) z1 =
      match c.saddle (idx m.imax e.zn) with
      | some d => .ok (if z1 then !d else d, c.saddle)
      | none =>
        let g := centreHighR rnd lev (m.z (idx m.imax e.p0)) (m.z (idx m.imax e.q0)) (m.z (idx m.imax e.p1)) (m.z (idx m.imax e.q1))
        .ok (if z1 then !g else g, upd c.saddle (idx m.imax e.zn) (some g)) := by
  obtain ⟨b0, b1, b2, b3, b4, b5⟩ := (mkTopo_ok m reg lev).box hex
  have h2 := (mkTopo_ok m reg lev).imax2 hex
  unfold saddleTurnR
  rw [hat.edge, hat.left, DE.zone_idx h2]
  dsimp only
  rw [rd_ok (range_ijmax b4), rd_ok (range_ijmax b0), DE.corner0, rd_ok (range_ijmax b2),
    rd_ok (range_ijmax b1), DE.corner1, rd_ok (range_ijmax b3)]
  simp only [bind, Except.bind, pure, Except.pure]
  cases c.saddle (idx m.imax e.zn) <;> rfl

theorem saddleTurn_val {c : Cross K} {e : DE} (hat : At m c e) (hex : (mkTopo m reg lev).ex e = true) (z1 : Bool) :
    saddleTurn m lev c (idx m.imax e.p0) (idx m.imax e.p1) z1 =
      match c.saddle (idx m.imax e.zn) with
      | some d => .ok (if z1 then !d else d, c.saddle)
      | none => .ok (if z1 then !(mkTopo m reg lev).sd e else (mkTopo m reg lev).sd e,
          upd c.saddle (idx m.imax e.zn) (some ((mkTopo m reg lev).sd e))) := by
  have ok := mkTopo_ok m reg lev
  obtain ⟨b0, b1, b2, b3, b4, b5⟩ := ok.box hex
  have h2 := ok.imax2 hex
  unfold saddleTurn
  rw [hat.edge, hat.left, DE.zone_idx h2]
  dsimp only
  rw [rd_ok (range_ijmax b4), rd_ok (range_ijmax b0), DE.corner0, rd_ok (range_ijmax b2),
    rd_ok (range_ijmax b1), DE.corner1, rd_ok (range_ijmax b3)]
  simp only [bind, Except.bind, pure, Except.pure]
  rw [ok.sd]
  cases c.saddle (idx m.imax e.zn) <;> rfl

theorem crossZoneR_val (rnd : K → K) {c : Cross K} {e : DE} (hat : At m c e) (hl : Link m (mkTopo m reg lev) c.data)
    (hex : (mkTopo m reg lev).ex e = true) :
    crossZoneR rnd m lev c (idx m.imax e.p0) (idx m.imax e.p1) =
      if (mkTopo m reg lev).h e.p0 = (mkTopo m reg lev).h e.q1 then
        if (!(mkTopo m reg lev).h e.p0) = (mkTopo m reg lev).h e.q0 then
          (saddleTurnR rnd m lev c (idx m.imax e.p0) (idx m.imax e.p1) (!(mkTopo m reg lev).h e.p0)).map fun r =>
            bend { c with saddle := r.2 } r.1 (idx m.imax e.p0) (idx m.imax e.p1)
        else .ok (bendForward c (idx m.imax e.p1))
      else if (!(mkTopo m reg lev).h e.p0) = (mkTopo m reg lev).h e.q0 then .ok (bendBackward c (idx m.imax e.p0))
      else .ok (goStraight c) := by
  obtain ⟨b0, b1, b2, b3, b4, b5⟩ := (mkTopo_ok m reg lev).box hex
  unfold crossZoneR
  rw [rd_ok (range_nreg b0), hat.left, DE.corner1, rd_ok (range_nreg b3), DE.corner0, rd_ok (range_nreg b2)]
  simp only [bind, Except.bind, pure, Except.pure]
  rw [hl.z _ b0, hl.z _ b3, hl.z _ b2]
  split_ifs <;> rfl

theorem crossZone_val {c : Cross K} {e : DE} (hat : At m c e) (hl : Link m (mkTopo m reg lev) c.data)
    (hex : (mkTopo m reg lev).ex e = true) :
    crossZone m lev c (idx m.imax e.p0) (idx m.imax e.p1) =
      if (mkTopo m reg lev).h e.p0 = (mkTopo m reg lev).h e.q1 then
        if (!(mkTopo m reg lev).h e.p0) = (mkTopo m reg lev).h e.q0 then
          (saddleTurn m lev c (idx m.imax e.p0) (idx m.imax e.p1) (!(mkTopo m reg lev).h e.p0)).map fun r =>
            bend { c with saddle := r.2 } r.1 (idx m.imax e.p0) (idx m.imax e.p1)
        else .ok (bendForward c (idx m.imax e.p1))
      else if (!(mkTopo m reg lev).h e.p0) = (mkTopo m reg lev).h e.q0 then .ok (bendBackward c (idx m.imax e.p0))
      else .ok (goStraight c) := by
  obtain ⟨b0, b1, b2, b3, b4, b5⟩ := (mkTopo_ok m reg lev).box hex
  unfold crossZone
  rw [rd_ok (range_nreg b0), hat.left, DE.corner1, rd_ok (range_nreg b3), DE.corner0, rd_ok (range_nreg b2)]
  simp only [bind, Except.bind, pure, Except.pure]
  rw [hl.z _ b0, hl.z _ b3, hl.z _ b2]
  split_ifs <;> rfl

/-- crossing a zone with rounding; other data with the same decision -/
theorem crossZoneR_any (rnd : K → K) {c : Cross K} {e : DE} (hat : At m c e) (hl : Link m (mkTopo m reg lev) c.data)
    (hex : (mkTopo m reg lev).ex e = true) (hcut : (mkTopo m reg lev).cut e) (hsd : Sadl m (mkTopo m reg lev) c.saddle) :
    ∃ c' : Cross K, c'.data = c.data ∧ Ext c.saddle c'.saddle ∧ Sadl m (mkTopo m reg lev) c'.saddle ∧
      (∀ q, crossZoneR rnd m lev { c with pts := q } (idx m.imax e.p0) (idx m.imax e.p1) = .ok { c' with pts := q }) ∧
      ∀ x y Z, Alike m x y Z lev → SadOK m (mkTopo (vary m x y Z) reg lev) c'.saddle → ∀ q,
        crossZone (vary m x y Z) lev { c with pts := q } (idx m.imax e.p0) (idx m.imax e.p1) = .ok { c' with pts := q } := by
  have ok := mkTopo_ok m reg lev
  obtain ⟨b0, b1, b2, b3, b4, b5⟩ := ok.box hex
  have hatq : ∀ q, At m { c with pts := q } e := fun q => ⟨hat.edge, hat.left, hat.fwd, hat.jedge⟩
  have vR := fun q => crossZoneR_val (reg := reg) (lev := lev) rnd (hatq q) hl hex
  have vZ : ∀ x y Z, Alike m x y Z lev → ∀ q, _ := fun x y Z ha q =>
    crossZone_val (m := vary m x y Z) (reg := reg) (lev := lev) (c := { c with pts := q }) (e := e)
      ⟨hat.edge, hat.left, hat.fwd, hat.jedge⟩ (alike_link ha hl) hex
  have sR := fun q => saddleTurnR_val (reg := reg) (lev := lev) rnd (hatq q) hex
  have sZ : ∀ x y Z, Alike m x y Z lev → ∀ q z1, _ := fun x y Z ha q z1 =>
    saddleTurn_val (m := vary m x y Z) (reg := reg) (lev := lev) (c := { c with pts := q }) (e := e)
      ⟨hat.edge, hat.left, hat.fwd, hat.jedge⟩ hex z1
  by_cases a : (mkTopo m reg lev).h e.p0 = (mkTopo m reg lev).h e.q1
  · by_cases b : (!(mkTopo m reg lev).h e.p0) = (mkTopo m reg lev).h e.q0
    · have hsad : IsSad (mkTopo m reg lev) e := ⟨hex, hcut, a, b⟩
      simp only [if_pos a, if_pos b, sR] at vR
      cases hs : c.saddle (idx m.imax e.zn) with
      | some d =>
        obtain ⟨f1, f2, f3⟩ := bend_fields c (if (!(mkTopo m reg lev).h e.p0) = true then !d else d) (idx m.imax e.p0) (idx m.imax e.p1)
        refine ⟨bend c (if (!(mkTopo m reg lev).h e.p0) = true then !d else d) (idx m.imax e.p0) (idx m.imax e.p1), f1,
          by rw [f2]; exact Ext.refl _, by rw [f2]; exact hsd, fun q => ?_, fun x y Z ha _ q => ?_⟩
        · rw [vR q, hs, ← f3]; rfl
        · refine (vZ x y Z ha q).trans ?_
          rw [alike_h ha, alike_h ha, alike_h ha, if_pos a, if_pos b]
          refine (congrArg _ (sZ x y Z ha q _)).trans ?_
          change Except.map _ (match c.saddle (idx m.imax e.zn) with | some d => _ | none => _) = _
          rw [hs, ← f3]; rfl
      | none =>
        set g := centreHighR rnd lev (m.z (idx m.imax e.p0)) (m.z (idx m.imax e.q0)) (m.z (idx m.imax e.p1))
          (m.z (idx m.imax e.q1)) with hg
        obtain ⟨f1, f2, f3⟩ := bend_fields { c with saddle := upd c.saddle (idx m.imax e.zn) (some g) }
          (if (!(mkTopo m reg lev).h e.p0) = true then !g else g) (idx m.imax e.p0) (idx m.imax e.p1)
        refine ⟨bend { c with saddle := upd c.saddle (idx m.imax e.zn) (some g) }
          (if (!(mkTopo m reg lev).h e.p0) = true then !g else g) (idx m.imax e.p0) (idx m.imax e.p1), f1,
          ?_, ?_, fun q => ?_, fun x y Z ha hS q => ?_⟩
        · rw [f2]
          intro k v hv
          simp only [Cntr.upd]
          split
          · rename_i hk; rw [hk, hs] at hv; cases hv
          · exact hv
        · rw [f2]
          intro i j hb hne
          simp only [Cntr.upd] at hne
          split at hne
          · rename_i hk
            exact ⟨e, hsad, (idx_inj ⟨hb.1, hb.2.1⟩ ⟨b4.1, b4.2.1⟩ hk).symm⟩
          · exact hsd i j hb hne
        · rw [vR q, hs, ← f3]; rfl
        · rw [f2] at hS
          have hgs : g = (mkTopo (vary m x y Z) reg lev).sd e := by
            rcases hS _ _ b4 with h1 | h1
            · have h1' : upd c.saddle (idx m.imax e.zn) (some g) (idx m.imax e.zn) = none := h1
              simp [Cntr.upd] at h1'
            · have h1' : upd c.saddle (idx m.imax e.zn) (some g) (idx m.imax e.zn) =
                  some ((mkTopo (vary m x y Z) reg lev).sd e) := h1
              simpa [Cntr.upd] using h1'
          refine (vZ x y Z ha q).trans ?_
          rw [alike_h ha, alike_h ha, alike_h ha, if_pos a, if_pos b]
          refine (congrArg _ (sZ x y Z ha q _)).trans ?_
          change Except.map _ (match c.saddle (idx m.imax e.zn) with | some d => _ | none => _) = _
          rw [hs, ← f3, hgs]; rfl
    · simp only [if_pos a, if_neg b] at vR
      refine ⟨bendForward c (idx m.imax e.p1), rfl, Ext.refl _, hsd, fun q => vR q, fun x y Z ha _ q => ?_⟩
      refine (vZ x y Z ha q).trans ?_
      rw [alike_h ha, alike_h ha, alike_h ha, if_pos a, if_neg b]; rfl
  · by_cases b : (!(mkTopo m reg lev).h e.p0) = (mkTopo m reg lev).h e.q0
    · simp only [if_neg a, if_pos b] at vR
      refine ⟨bendBackward c (idx m.imax e.p0), rfl, Ext.refl _, hsd, fun q => vR q, fun x y Z ha _ q => ?_⟩
      refine (vZ x y Z ha q).trans ?_
      rw [alike_h ha, alike_h ha, alike_h ha, if_neg a, if_pos b]; rfl
    · simp only [if_neg a, if_neg b] at vR
      refine ⟨goStraight c, rfl, Ext.refl _, hsd, fun q => vR q, fun x y Z ha _ q => ?_⟩
      refine (vZ x y Z ha q).trans ?_
      rw [alike_h ha, alike_h ha, alike_h ha, if_neg a, if_neg b]; rfl

end

end Trackeddy.Cntr
