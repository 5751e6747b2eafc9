import Verif.Proofs.Cntr.Realise

/-!
The tracer with an arbitrary rounding beside the one without, on other data on which it takes the same turns.
-/
namespace Trackeddy.Cntr

variable {K : Type} [Field K] [LinearOrder K] [IsStrictOrderedRing K]

/-- data on the same side of the level everywhere, whose means agree with the decisions taken -/
def Good (m : Mesh K) (reg : Option (Nat → Bool)) (lev : K) (S : Arr (Option Bool)) (x y : Arr K) (Z : Arr (Option K)) : Prop :=
  Alike m x y Z lev ∧ SadOK m (mkTopo (vary m x y Z) reg lev) S

theorem Good.of_ext {m : Mesh K} {reg : Option (Nat → Bool)} {lev : K} {s S : Arr (Option Bool)} {x y : Arr K}
    {Z : Arr (Option K)} (h : Good m reg lev S x y Z) (he : Ext s S) : Good m reg lev s x y Z :=
  ⟨h.1, SadOK.of_ext he h.2⟩

/-- two points on the same crossed edge: exact for other data, and computed -/
def Twin2 (rnd : K → K) (m : Mesh K) (reg : Option (Nat → Bool)) (lev : K) (x y : Arr K) (Z : Arr (Option K)) (v v' : Vertex K) : Prop :=
  ∃ e, (mkTopo m reg lev).ex e = true ∧ (mkTopo m reg lev).cut e ∧ v = vtx (vary m x y Z) lev e ∧ v' = vtxR rnd m lev e

section
variable {m : Mesh K} {reg : Option (Nat → Bool)} {lev : K} (hneg : ∀ k : Int, m.high lev k = m.high lev (k.toNat : Int))
include hneg

/-- the loop: either the exact one fails on all data that agree, or both arrive at the same state -/
theorem crossLoopR_any (rnd : K → K) (p2 : Bool) (edge0 left0 : Int) (level0 : Bool) :
    ∀ (fuel : Nat) (c : Cross K) (e : DE), At m c e → Link m (mkTopo m reg lev) c.data → Sadl m (mkTopo m reg lev) c.saddle →
      (mkTopo m reg lev).ex e = true → (mkTopo m reg lev).cut e →
      ∃ S, Ext c.saddle S ∧ Sadl m (mkTopo m reg lev) S ∧
        ((∀ x y Z, Good m reg lev S x y Z → ∀ P, ∃ er, crossLoop (vary m x y Z) lev p2 edge0 left0 level0 fuel { c with pts := P } = .error er) ∨
        ∃ r, crossLoopR rnd m lev p2 edge0 left0 level0 fuel c = .ok r ∧ r.saddle = S ∧ Shrink c.data r.data ∧
          ∀ x y Z, Good m reg lev S x y Z → ∀ P, List.Forall₂ (Twin2 rnd m reg lev x y Z) P c.pts →
            ∃ P', crossLoop (vary m x y Z) lev p2 edge0 left0 level0 fuel { c with pts := P } = .ok { r with pts := P' } ∧
              List.Forall₂ (Twin2 rnd m reg lev x y Z) P' r.pts) := by
  intro fuel
  induction fuel with
  | zero =>
    intro c e _ _ hs _ _
    exact ⟨c.saddle, Ext.refl _, hs, Or.inl fun x y Z _ P => ⟨.fuel, rfl⟩⟩
  | succ fuel ih =>
    intro c e hat hl hs hex hcut
    have ok := mkTopo_ok m reg lev
    obtain ⟨b0, b1, b2, b3, b4, b5⟩ := ok.box hex
    have h2 := ok.imax2 hex
    have hrr : 0 ≤ c.edge ∧ c.edge < m.nreg := by rw [hat.edge]; exact range_nreg b5
    have hP0 : POINT0 c.edge c.fwd = idx m.imax e.p0 := by rw [hat.edge, hat.fwd, DE.point0 h2]
    have hP1 : POINT1 c.edge c.fwd = idx m.imax e.p1 := by rw [hat.edge, hat.fwd, DE.point1 h2]
    obtain ⟨Q, eR, eP⟩ : ∃ Q : List (Vertex K),
        crossLoopR rnd m lev p2 edge0 left0 level0 (fuel + 1) c = (do
          let (c, stop) ← checkEdge m p2 edge0 left0 level0 { c with pts := Q }
          if stop then return c
          let c := { c with n := c.n + 1 }
          if c.done ≠ 0 then return c
          let c ← crossZoneR rnd m lev c (idx m.imax e.p0) (idx m.imax e.p1)
          let c ← checkBoundary m p2 edge0 left0 c
          crossLoopR rnd m lev p2 edge0 left0 level0 fuel c) ∧
        ∀ x y Z P, ∃ P1,
          (List.Forall₂ (Twin2 rnd m reg lev x y Z) P c.pts → List.Forall₂ (Twin2 rnd m reg lev x y Z) P1 Q) ∧
          crossLoop (vary m x y Z) lev p2 edge0 left0 level0 (fuel + 1) { c with pts := P } = (do
          let (c, stop) ← checkEdge m p2 edge0 left0 level0 { c with pts := P1 }
          if stop then return c
          let c := { c with n := c.n + 1 }
          if c.done ≠ 0 then return c
          let c ← crossZone (vary m x y Z) lev c (idx m.imax e.p0) (idx m.imax e.p1)
          let c ← checkBoundary m p2 edge0 left0 c
          crossLoop (vary m x y Z) lev p2 edge0 left0 level0 fuel c) := by
      cases p2
      · refine ⟨c.pts, ?_, fun x y Z P => ⟨P, id, ?_⟩⟩
        · rw [crossLoopR]; simp only [hP0, hP1]; rfl
        · rw [crossLoop]; simp only [hP0, hP1]; rfl
      · refine ⟨c.pts ++ [vtxR rnd m lev e], ?_, fun x y Z P => ⟨P ++ [vtx (vary m x y Z) lev e], fun h => ?_, ?_⟩⟩
        · rw [crossLoopR]; simp only [hP0, hP1]; rw [markPointR_ok b0 b1]; rfl
        · exact List.rel_append h (.cons ⟨e, hex, hcut, rfl, rfl⟩ .nil)
        · rw [crossLoop]; simp only [hP0, hP1]
          have : markPoint (vary m x y Z) lev (idx m.imax e.p0) (idx m.imax e.p1) = .ok (vtx (vary m x y Z) lev e) :=
            markPoint_ok (m := vary m x y Z) b0 b1
          rw [this]; rfl
    obtain ⟨D, cnt, dn, b, hD, hce⟩ := checkEdge_form p2 edge0 left0 level0 hrr
    simp only [bind, Except.bind, pure, Except.pure, hce] at eR eP
    cases b
    case true =>
      simp only [if_true] at eR eP
      refine ⟨c.saddle, Ext.refl _, hs, Or.inr ⟨_, eR, rfl, hD, fun x y Z _ P hP => ?_⟩⟩
      obtain ⟨P1, h1, h2⟩ := eP x y Z P
      exact ⟨P1, h2, h1 hP⟩
    case false =>
      simp only [Bool.false_eq_true, if_false] at eR eP
      by_cases hd : dn ≠ 0
      · simp only [if_pos hd] at eR eP
        refine ⟨c.saddle, Ext.refl _, hs, Or.inr ⟨_, eR, rfl, hD, fun x y Z _ P hP => ?_⟩⟩
        obtain ⟨P1, h1, h2⟩ := eP x y Z P
        exact ⟨P1, h2, h1 hP⟩
      · simp only [if_neg hd] at eR eP
        set c1 : Cross K := { c with n := c.n + 1, data := D, count := cnt, done := dn } with hc1
        have hat1 : At m c1 e := ⟨hat.edge, hat.left, hat.fwd, hat.jedge⟩
        have hl1 : Link m (mkTopo m reg lev) c1.data := hD.link hl
        obtain ⟨c', d1, d2, d3, d4, d5⟩ := crossZoneR_any rnd hat1 hl1 hex hcut hs
        -- where it leads, by other data
        obtain ⟨f, _, hf⟩ := realise hneg d3
        obtain ⟨fa, fs⟩ := hf m.x m.y
        set Z0 := fillArr m f with hZ0
        have ok' := mkTopo_ok (vary m m.x m.y Z0) reg lev
        obtain ⟨s', hs', c'', ha', hz, g1, g2, g3, g4, g5, g6⟩ := crossZone_next ok' (c := c1) (e := e)
          ⟨hat1.edge, hat1.left, hat1.fwd, hat1.jedge⟩ (alike_link fa hl1) (SadOK.of_ext d2 fs) hex ((alike_cut fa).mpr hcut)
        have hzz := d5 m.x m.y Z0 fa fs c1.pts
        have hc'' : c'' = { c' with pts := c1.pts } := by
          have := hz.symm.trans hzz
          simpa using this
        set e' := (mkTopo (vary m m.x m.y Z0) reg lev).next e with he'
        have hat' : At m c' e' := by
          rw [hc''] at ha'
          exact ⟨ha'.edge, ha'.left, ha'.fwd, ha'.jedge⟩
        have hcut' : (mkTopo m reg lev).cut e' := (alike_cut fa).mp (Topo.cut_next _ ((alike_cut fa).mpr hcut))
        have hxr : (mkTopo m reg lev).ex e'.rev = true := by
          have : (mkTopo (vary m m.x m.y Z0) reg lev).ex e'.rev = true := by rw [he', Topo.ex_rev_next]; exact hex
          exact this
        have hl' : Link m (mkTopo m reg lev) c'.data := by rw [d1]; exact hl1
        obtain ⟨D', cnt', hD', hcb⟩ := checkBoundary_form ok p2 edge0 left0 hat' hl' hxr
        have hDD : Shrink c.data c'.data := by rw [d1]; exact hD
        have r4 := d4 Q
        simp only [hc1] at r4
        rw [r4] at eR
        simp only [hcb] at eR
        -- the exact loop on data that agree
        have eP' : ∀ x y Z, Good m reg lev c'.saddle x y Z → ∀ P, ∃ P1,
            (List.Forall₂ (Twin2 rnd m reg lev x y Z) P c.pts → List.Forall₂ (Twin2 rnd m reg lev x y Z) P1 Q) ∧
            crossLoop (vary m x y Z) lev p2 edge0 left0 level0 (fuel + 1) { c with pts := P } =
              crossLoop (vary m x y Z) lev p2 edge0 left0 level0 fuel (if (mkTopo m reg lev).ex e' = true then { c' with pts := P1 } else
                { c' with done := 4, left := -c'.left, fwd := -c'.fwd, data := D', count := cnt', pts := P1 }) := by
          intro x y Z hg P
          obtain ⟨P1, h1, h2⟩ := eP x y Z P
          refine ⟨P1, h1, ?_⟩
          have r5 := d5 x y Z hg.1 hg.2 P1
          simp only [hc1] at r5
          rw [h2, r5]
          simp only [hcb]
        cases hx : (mkTopo m reg lev).ex e'
        · simp only [hx, Bool.false_eq_true, if_false] at eR eP'
          have haf := hat'.flip ok
          obtain ⟨S, k1, k2, k3⟩ := ih
            { c' with done := 4, left := -c'.left, fwd := -c'.fwd, data := D', count := cnt', pts := Q } e'.rev
            ⟨haf.edge, haf.left, haf.fwd, haf.jedge⟩ (hD'.link hl') d3 hxr (Topo.cut_rev _ |>.mpr hcut')
          refine ⟨S, d2.trans k1, k2, ?_⟩
          rcases k3 with k3 | ⟨r, k3, k4, k5, k6⟩
          · left
            intro x y Z hg P
            obtain ⟨P1, h1, h2⟩ := eP' x y Z (hg.of_ext k1) P
            rw [h2]
            exact k3 x y Z hg P1
          · right
            refine ⟨r, eR.trans k3, k4, hDD.trans (hD'.trans k5), fun x y Z hg P hP => ?_⟩
            obtain ⟨P1, h1, h2⟩ := eP' x y Z (hg.of_ext k1) P
            rw [h2]
            exact k6 x y Z hg P1 (h1 hP)
        · simp only [hx, if_true] at eR eP'
          obtain ⟨S, k1, k2, k3⟩ := ih { c' with pts := Q } e' ⟨hat'.edge, hat'.left, hat'.fwd, hat'.jedge⟩ hl' d3 hx hcut'
          refine ⟨S, d2.trans k1, k2, ?_⟩
          rcases k3 with k3 | ⟨r, k3, k4, k5, k6⟩
          · left
            intro x y Z hg P
            obtain ⟨P1, h1, h2⟩ := eP' x y Z (hg.of_ext k1) P
            rw [h2]
            exact k3 x y Z hg P1
          · right
            refine ⟨r, eR.trans k3, k4, hDD.trans k5, fun x y Z hg P hP => ?_⟩
            obtain ⟨P1, h1, h2⟩ := eP' x y Z (hg.of_ext k1) P
            rw [h2]
            exact k6 x y Z hg P1 (h1 hP)

end

/-! ### the search for starts, and the passes -/

section
variable {m : Mesh K} {reg : Option (Nat → Bool)} {lev : K}

omit [IsStrictOrderedRing K] in
theorem scanRows_vary (x y : Arr K) (Z : Arr (Option K)) (D : Arr Cell) : ∀ (fuel : Nat) (e : Int),
    scanRows (vary m x y Z) D fuel e = scanRows m D fuel e := by
  intro fuel
  induction fuel with
  | zero => intro e; rfl
  | succ fuel ih => intro e; rw [scanRows, scanRows]; simp only [ih]; rfl

omit [IsStrictOrderedRing K] in
theorem scanStart_vary (x y : Arr K) (Z : Arr (Option K)) (D : Arr Cell) : ∀ (fuel : Nat) (e : Int),
    scanStart (vary m x y Z) D fuel e = scanStart m D fuel e := by
  intro fuel
  induction fuel with
  | zero => intro e; rfl
  | succ fuel ih => intro e; rw [scanStart, scanStart]; simp only [ih]; rfl

omit [IsStrictOrderedRing K] in
theorem beginSearch_vary (x y : Arr K) (Z : Arr (Option K)) (p2 : Bool) (fuel : Nat) (s : Site) :
    beginSearch (vary m x y Z) p2 fuel s = beginSearch m p2 fuel s := by
  unfold beginSearch; rw [scanRows_vary]; rfl

omit [IsStrictOrderedRing K] in
theorem findStart_vary (x y : Arr K) (Z : Arr (Option K)) (fuel : Nat) (s : Site) (two : Bool) :
    findStart (vary m x y Z) fuel s two = findStart m fuel s two := by
  unfold findStart; rw [scanStart_vary]; rfl

/-- the site in which the search goes on -/
def Start.site : Start → Site
  | .finished s => s
  | .here s _ => s

omit [IsStrictOrderedRing K] in
theorem beginSearch_saddle {p2 : Bool} {fuel : Nat} {s : Site} {r : Start} (h : beginSearch m p2 fuel s = .ok r) :
    r.site.saddle = s.saddle := by
  unfold beginSearch at h
  simp only [bind, Except.bind, pure, Except.pure] at h
  split at h
  · cases h
  · split at h
    · split at h
      · cases h; rfl
      · split at h
        · cases h; rfl
        · split at h
          · cases h
          · split at h
            · split at h
              · cases h
              · cases h; rfl
            · cases h; rfl
    · split at h
      · split at h
        · cases h
        · cases h; rfl
      · cases h
        simp only [Start.site]
        split <;> rfl

omit [IsStrictOrderedRing K] in
theorem finishPass1_saddle {s : Site} {e l : Int} {lv : Bool} {c : Cross K} {n : Int} {s' : Site}
    (h : finishPass1 m s e l lv c = .ok (n, s')) : s'.saddle = c.saddle := by
  unfold finishPass1 at h
  simp only [bind, Except.bind, pure, Except.pure] at h
  split at h
  · cases h
  · split at h
    · cases h; rfl
    · split at h
      · cases h
      · cases h; rfl

/-- the state between two curves -/
structure FineA (m : Mesh K) (reg : Option (Nat → Bool)) (lev : K) (M0 : DE → Prop) (s : Site) : Prop where
  link : Link m (mkTopo m reg lev) s.data
  sad : Sadl m (mkTopo m reg lev) s.saddle
  marks : ∀ k d, 0 ≤ k → k < m.nreg → (s.data k).bit d = true → ∃ a, M0 a ∧ a.edgeOf m.imax = k ∧ a.d = d

theorem FineA.to {M0 : DE → Prop} {s : Site} (h : FineA m reg lev M0 s) {x y : Arr K} {Z : Arr (Option K)}
    (hg : Good m reg lev s.saddle x y Z) : Fine (vary m x y Z) (mkTopo (vary m x y Z) reg lev) M0 s :=
  ⟨alike_link hg.1 h.link, hg.2, h.marks⟩

theorem FineA.of {M0 : DE → Prop} {s : Site} {x y : Arr K} {Z : Arr (Option K)} (ha : Alike m x y Z lev)
    (hf : Fine (vary m x y Z) (mkTopo (vary m x y Z) reg lev) M0 s) (hs : Sadl m (mkTopo m reg lev) s.saddle) :
    FineA m reg lev M0 s :=
  ⟨⟨fun p hp => by rw [← alike_h ha]; exact hf.link.z p hp, hf.link.ib, hf.link.jb⟩, hs, hf.marks⟩

variable (hneg : ∀ k : Int, m.high lev k = m.high lev (k.toNat : Int)) {M0 : DE → Prop}
  (hM : ∀ a, M0 a → (mkTopo m reg lev).ex a = true ∧ (mkTopo m reg lev).cut a)
include hneg hM

/-- one curve -/
theorem curveTracerR_any (rnd : K → K) (p2 : Bool) (fuel : Nat) {s : Site} (hf : FineA m reg lev M0 s) :
    ∃ S, Ext s.saddle S ∧ Sadl m (mkTopo m reg lev) S ∧
      ((∀ x y Z, Good m reg lev S x y Z → ∃ er, curveTracer (vary m x y Z) lev p2 fuel s = .error er) ∨
      ∃ n pts s', curveTracerR rnd m lev p2 fuel s = .ok (n, pts, s') ∧ s'.saddle = S ∧ FineA m reg lev M0 s' ∧
        ∀ x y Z, Good m reg lev S x y Z → ∃ P, curveTracer (vary m x y Z) lev p2 fuel s = .ok (n, P, s') ∧
          List.Forall₂ (Twin2 rnd m reg lev x y Z) P pts) := by
  have ok := mkTopo_ok m reg lev
  obtain ⟨f, _, hfl⟩ := realise hneg hf.sad
  obtain ⟨fa, fs⟩ := hfl m.x m.y
  have hfv := hf.to ⟨fa, fs⟩
  cases h0 : beginSearch m p2 fuel s with
  | error er =>
    refine ⟨s.saddle, Ext.refl _, hf.sad, Or.inl fun x y Z _ => ⟨er, ?_⟩⟩
    unfold curveTracer
    rw [beginSearch_vary, h0]; rfl
  | ok r =>
    have hsad := beginSearch_saddle h0
    have hb := beginSearch_fine hfv (by rw [beginSearch_vary]; exact h0)
    cases r with
    | finished s1 =>
      refine ⟨s.saddle, Ext.refl _, hf.sad, Or.inr ⟨0, [], s1, ?_, hsad, FineA.of fa hb (by rw [show s1.saddle = s.saddle from hsad]; exact hf.sad),
        fun x y Z _ => ⟨[], ?_, .nil⟩⟩⟩
      · unfold curveTracerR; rw [h0]; rfl
      · unfold curveTracer; rw [beginSearch_vary, h0]; rfl
    | here s1 two =>
      obtain ⟨hf1, htwo⟩ := hb
      cases h1 : findStart m fuel s1 two with
      | error er =>
        refine ⟨s.saddle, Ext.refl _, hf.sad, Or.inl fun x y Z _ => ⟨er, ?_⟩⟩
        unfold curveTracer
        rw [beginSearch_vary, h0]
        simp only [bind, Except.bind]
        rw [findStart_vary, h1]
      | ok r =>
        obtain ⟨e, l, lv⟩ := r
        have hM' : ∀ a, M0 a → (mkTopo (vary m m.x m.y (fillArr m f)) reg lev).ex a = true ∧
            (mkTopo (vary m m.x m.y (fillArr m f)) reg lev).cut a := fun a ha => ⟨(hM a ha).1, (alike_cut fa).mpr (hM a ha).2⟩
        obtain ⟨a, ha, hae, hal⟩ := findStart_start (mkTopo_ok _ reg lev) hM' hf1 htwo (by rw [findStart_vary]; exact h1)
        have hae' : e = a.edgeOf m.imax := hae
        have hal' : l = a.leftOf m.imax := hal
        subst hae' hal'
        obtain ⟨hex, hcut⟩ := hM a ha
        have h2 := ok.imax2 hex
        set s2 : Site := if p2 = true then s1 else { s1 with count := s1.count - 1 } with hs2
        have hd2 : s2.data = s1.data := by rw [hs2]; split <;> rfl
        have hsd2 : s2.saddle = s.saddle := by rw [← show s1.saddle = s.saddle from hsad, hs2]; split <;> rfl
        have hf2 : Fine (vary m m.x m.y (fillArr m f)) (mkTopo (vary m m.x m.y (fillArr m f)) reg lev) M0 s2 :=
          hf1.shrink (by rw [hd2]; exact Shrink.refl _) (by rw [hsd2]; exact fs)
        have hA2 : FineA m reg lev M0 s2 := FineA.of fa hf2 (by rw [hsd2]; exact hf.sad)
        obtain ⟨S, k1, k2, k3⟩ := crossLoopR_any hneg rnd p2 (a.edgeOf m.imax) (a.leftOf m.imax) lv fuel
          { edge := a.edgeOf m.imax, left := a.leftOf m.imax, fwd := FORWARD (a.leftOf m.imax) m.imax,
            jedge := IS_JEDGE (a.leftOf m.imax), n := 0, done := 0, data := s2.data, saddle := s2.saddle,
            count := s2.count, pts := [] } a ⟨rfl, rfl, DE.forward_left h2 a, DE.isJ_left h2 a⟩ hA2.link hA2.sad hex hcut
        have k1' : Ext s.saddle S := by rw [← hsd2]; exact k1
        -- the tracers in terms of the loop
        have eR : curveTracerR rnd m lev p2 fuel s = (do
            let c ← zoneCrosserR rnd m lev p2 fuel s2 (a.edgeOf m.imax) (a.leftOf m.imax) lv
            if p2 then
              return ((c.n : Int), c.pts, { s2 with data := c.data, saddle := c.saddle, count := c.count, edge0 := a.edgeOf m.imax, left0 := a.leftOf m.imax })
            else do
              let (n, s) ← finishPass1 m s2 (a.edgeOf m.imax) (a.leftOf m.imax) lv c
              return (n, [], s)) := by
          unfold curveTracerR
          rw [h0]
          simp only [bind, Except.bind]
          rw [h1]
        have eE : ∀ x y Z, curveTracer (vary m x y Z) lev p2 fuel s = (do
            let c ← zoneCrosser (vary m x y Z) lev p2 fuel s2 (a.edgeOf m.imax) (a.leftOf m.imax) lv
            if p2 then
              return ((c.n : Int), c.pts, { s2 with data := c.data, saddle := c.saddle, count := c.count, edge0 := a.edgeOf m.imax, left0 := a.leftOf m.imax })
            else do
              let (n, s) ← finishPass1 m s2 (a.edgeOf m.imax) (a.leftOf m.imax) lv c
              return (n, [], s)) := by
          intro x y Z
          unfold curveTracer
          rw [beginSearch_vary, h0]
          simp only [bind, Except.bind]
          rw [findStart_vary, h1]
          rfl
        rcases k3 with k3 | ⟨r, k3, k4, k5, k6⟩
        · refine ⟨S, k1', k2, Or.inl fun x y Z hg => ?_⟩
          obtain ⟨er, h⟩ := k3 x y Z hg []
          refine ⟨er, ?_⟩
          have h' : zoneCrosser (vary m x y Z) lev p2 fuel s2 (a.edgeOf m.imax) (a.leftOf m.imax) lv = .error er := h
          rw [eE, h']; rfl
        · have k3' : zoneCrosserR rnd m lev p2 fuel s2 (a.edgeOf m.imax) (a.leftOf m.imax) lv = .ok r := k3
          have k6' : ∀ x y Z, Good m reg lev S x y Z → ∃ P', zoneCrosser (vary m x y Z) lev p2 fuel s2 (a.edgeOf m.imax)
              (a.leftOf m.imax) lv = .ok { r with pts := P' } ∧ List.Forall₂ (Twin2 rnd m reg lev x y Z) P' r.pts :=
            fun x y Z hg => k6 x y Z hg [] .nil
          rw [k3'] at eR
          obtain ⟨f3, _, hfl3⟩ := realise hneg k2
          obtain ⟨fa3, fs3⟩ := hfl3 m.x m.y
          have hf3 := hA2.to (x := m.x) (y := m.y) (Z := fillArr m f3) ⟨fa3, SadOK.of_ext k1 fs3⟩
          have hsr : SadOK (vary m m.x m.y (fillArr m f3)) (mkTopo (vary m m.x m.y (fillArr m f3)) reg lev) r.saddle := by
            rw [k4]; exact fs3
          cases p2
          · simp only [bind, Except.bind, pure, Except.pure, Bool.false_eq_true, if_false] at eR eE
            have e1 : ∀ q, finishPass1 m s2 (a.edgeOf m.imax) (a.leftOf m.imax) lv { r with pts := q } =
                finishPass1 m s2 (a.edgeOf m.imax) (a.leftOf m.imax) lv r := fun q => rfl
            cases h4 : finishPass1 m s2 (a.edgeOf m.imax) (a.leftOf m.imax) lv r with
            | error er =>
              refine ⟨S, k1', k2, Or.inl fun x y Z hg => ⟨er, ?_⟩⟩
              obtain ⟨P', h5, _⟩ := k6' x y Z hg
              rw [eE, h5]
              simp only [e1, h4]
            | ok w =>
              obtain ⟨n, s'⟩ := w
              rw [h4] at eR
              have h7 := finishPass1_saddle h4
              refine ⟨S, k1', k2, Or.inr ⟨n, [], s', eR, h7.trans k4,
                FineA.of fa3 (finishPass1_fine hf3 k5 hsr h4) (by rw [h7, k4]; exact k2), fun x y Z hg => ⟨[], ?_, .nil⟩⟩⟩
              obtain ⟨P', h5, _⟩ := k6' x y Z hg
              rw [eE, h5]
              simp only [e1, h4]
          · simp only [bind, Except.bind, pure, Except.pure, if_true] at eR eE
            refine ⟨S, k1', k2, Or.inr ⟨_, _, _, eR, k4, FineA.of fa3 (hf3.shrink k5 hsr) (by rw [show ({ s2 with data := r.data, saddle := r.saddle, count := r.count, edge0 := a.edgeOf m.imax, left0 := a.leftOf m.imax } : Site).saddle = S from k4]; exact k2), fun x y Z hg => ?_⟩⟩
            obtain ⟨P', h5, h6⟩ := k6' x y Z hg
            exact ⟨P', by rw [eE, h5], h6⟩

theorem pass1R_any (rnd : K → K) (fuel : Nat) : ∀ (rounds : Nat) (s : Site) (a : Nat) (b : Int), FineA m reg lev M0 s →
    ∃ S, Ext s.saddle S ∧ Sadl m (mkTopo m reg lev) S ∧
      ((∀ x y Z, Good m reg lev S x y Z → ∃ er, pass1 (vary m x y Z) lev fuel rounds s a b = .error er) ∨
      ∃ r, pass1R rnd m lev fuel rounds s a b = .ok r ∧ r.2.2.saddle = S ∧ FineA m reg lev M0 r.2.2 ∧
        ∀ x y Z, Good m reg lev S x y Z → pass1 (vary m x y Z) lev fuel rounds s a b = .ok r) := by
  intro rounds
  induction rounds with
  | zero => intro s a b hf; exact ⟨s.saddle, Ext.refl _, hf.sad, Or.inl fun x y Z _ => ⟨.fuel, rfl⟩⟩
  | succ rounds ih =>
    intro s a b hf
    obtain ⟨S, k1, k2, k3⟩ := curveTracerR_any hneg hM rnd false fuel hf
    rcases k3 with k3 | ⟨n, pts, s1, k3, k4, k5, k6⟩
    · refine ⟨S, k1, k2, Or.inl fun x y Z hg => ?_⟩
      obtain ⟨er, h⟩ := k3 x y Z hg
      exact ⟨er, by rw [pass1, h]; rfl⟩
    · have eR : pass1R rnd m lev fuel (rounds + 1) s a b = if n = 0 then .ok (a, b, s1) else
          if n > 0 then pass1R rnd m lev fuel rounds s1 (a + 1) (b + n) else pass1R rnd m lev fuel rounds s1 a (b - n) := by
        rw [pass1R, k3]; rfl
      have eE : ∀ x y Z, Good m reg lev S x y Z → pass1 (vary m x y Z) lev fuel (rounds + 1) s a b = if n = 0 then .ok (a, b, s1) else
          if n > 0 then pass1 (vary m x y Z) lev fuel rounds s1 (a + 1) (b + n) else pass1 (vary m x y Z) lev fuel rounds s1 a (b - n) := by
        intro x y Z hg
        obtain ⟨P, h, _⟩ := k6 x y Z hg
        rw [pass1, h]; rfl
      by_cases c1 : n = 0
      · simp only [if_pos c1] at eR eE
        exact ⟨S, k1, k2, Or.inr ⟨_, eR, k4, k5, eE⟩⟩
      · simp only [if_neg c1] at eR eE
        by_cases c2 : n > 0
        · simp only [if_pos c2] at eR eE
          obtain ⟨S', j1, j2, j3⟩ := ih s1 (a + 1) (b + n) k5
          rw [k4] at j1
          refine ⟨S', k1.trans j1, j2, ?_⟩
          rcases j3 with j3 | ⟨r, j3, j4, j5, j6⟩
          · left; intro x y Z hg; rw [eE x y Z (hg.of_ext j1)]; exact j3 x y Z hg
          · right; exact ⟨r, eR.trans j3, j4, j5, fun x y Z hg => by rw [eE x y Z (hg.of_ext j1)]; exact j6 x y Z hg⟩
        · simp only [if_neg c2] at eR eE
          obtain ⟨S', j1, j2, j3⟩ := ih s1 a (b - n) k5
          rw [k4] at j1
          refine ⟨S', k1.trans j1, j2, ?_⟩
          rcases j3 with j3 | ⟨r, j3, j4, j5, j6⟩
          · left; intro x y Z hg; rw [eE x y Z (hg.of_ext j1)]; exact j3 x y Z hg
          · right; exact ⟨r, eR.trans j3, j4, j5, fun x y Z hg => by rw [eE x y Z (hg.of_ext j1)]; exact j6 x y Z hg⟩

theorem pass2R_any (rnd : K → K) (fuel nparts : Nat) (ntotal : Int) : ∀ (rounds : Nat) (s : Site) (out : List (List (Vertex K))) (b : Int),
    FineA m reg lev M0 s → ∃ S, Ext s.saddle S ∧ Sadl m (mkTopo m reg lev) S ∧
      ((∀ x y Z, Good m reg lev S x y Z → ∀ out0, out0.length = out.length →
        ∃ er, pass2 (vary m x y Z) lev fuel nparts ntotal rounds s out0 b = .error er) ∨
      ∃ r, pass2R rnd m lev fuel nparts ntotal rounds s out b = .ok r ∧
        ∀ x y Z, Good m reg lev S x y Z → ∀ out0, List.Forall₂ (List.Forall₂ (Twin2 rnd m reg lev x y Z)) out0 out →
          ∃ r0, pass2 (vary m x y Z) lev fuel nparts ntotal rounds s out0 b = .ok r0 ∧
            List.Forall₂ (List.Forall₂ (Twin2 rnd m reg lev x y Z)) r0 r) := by
  intro rounds
  induction rounds with
  | zero => intro s out b hf; exact ⟨s.saddle, Ext.refl _, hf.sad, Or.inl fun x y Z _ _ _ => ⟨.fuel, rfl⟩⟩
  | succ rounds ih =>
    intro s out b hf
    obtain ⟨S, k1, k2, k3⟩ := curveTracerR_any hneg hM rnd true fuel hf
    rcases k3 with k3 | ⟨n, pts, s1, k3, k4, k5, k6⟩
    · refine ⟨S, k1, k2, Or.inl fun x y Z hg out0 _ => ?_⟩
      obtain ⟨er, h⟩ := k3 x y Z hg
      exact ⟨er, by rw [pass2, h]; rfl⟩
    · have eR : pass2R rnd m lev fuel nparts ntotal (rounds + 1) s out b =
          if b + n > ntotal then .error .outOfBounds else if n = 0 then (if out.length = nparts then .ok out else .error .outOfBounds)
          else if n > 0 then (if out.length < nparts then pass2R rnd m lev fuel nparts ntotal rounds s1 (out ++ [pts]) (b + n)
            else .error .outOfBounds) else .error .runtimeError := by
        rw [pass2R, k3]
        simp only [bind, Except.bind, pure, Except.pure, throw, throwThe, MonadExceptOf.throw]
      have eE : ∀ x y Z, Good m reg lev S x y Z → ∀ out0, ∃ P, List.Forall₂ (Twin2 rnd m reg lev x y Z) P pts ∧
          pass2 (vary m x y Z) lev fuel nparts ntotal (rounds + 1) s out0 b =
          if b + n > ntotal then .error .outOfBounds else if n = 0 then (if out0.length = nparts then .ok out0 else .error .outOfBounds)
          else if n > 0 then (if out0.length < nparts then pass2 (vary m x y Z) lev fuel nparts ntotal rounds s1 (out0 ++ [P]) (b + n)
            else .error .outOfBounds) else .error .runtimeError := by
        intro x y Z hg out0
        obtain ⟨P, h, h'⟩ := k6 x y Z hg
        refine ⟨P, h', ?_⟩
        rw [pass2, h]
        simp only [bind, Except.bind, pure, Except.pure, throw, throwThe, MonadExceptOf.throw]
      by_cases c0 : b + n > ntotal
      · refine ⟨S, k1, k2, Or.inl fun x y Z hg out0 _ => ?_⟩
        obtain ⟨P, _, h⟩ := eE x y Z hg out0
        exact ⟨_, h.trans (if_pos c0)⟩
      · simp only [if_neg c0] at eR eE
        by_cases c1 : n = 0
        · simp only [if_pos c1] at eR eE
          by_cases c2 : out.length = nparts
          · simp only [if_pos c2] at eR
            refine ⟨S, k1, k2, Or.inr ⟨out, eR, fun x y Z hg out0 ho => ?_⟩⟩
            obtain ⟨P, _, h⟩ := eE x y Z hg out0
            exact ⟨out0, h.trans (if_pos (ho.length_eq.trans c2)), ho⟩
          · refine ⟨S, k1, k2, Or.inl fun x y Z hg out0 ho => ?_⟩
            obtain ⟨P, _, h⟩ := eE x y Z hg out0
            exact ⟨_, h.trans (if_neg (by rw [ho]; exact c2))⟩
        · simp only [if_neg c1] at eR eE
          by_cases c2 : n > 0
          · simp only [if_pos c2] at eR eE
            by_cases c3 : out.length < nparts
            · simp only [if_pos c3] at eR
              obtain ⟨S', j1, j2, j3⟩ := ih s1 (out ++ [pts]) (b + n) k5
              rw [k4] at j1
              refine ⟨S', k1.trans j1, j2, ?_⟩
              rcases j3 with j3 | ⟨r, j3, j4⟩
              · left
                intro x y Z hg out0 ho
                obtain ⟨P, _, h⟩ := eE x y Z (hg.of_ext j1) out0
                rw [h, if_pos (by rw [ho]; exact c3)]
                exact j3 x y Z hg _ (by simp [ho])
              · right
                refine ⟨r, eR.trans j3, fun x y Z hg out0 ho => ?_⟩
                obtain ⟨P, hP, h⟩ := eE x y Z (hg.of_ext j1) out0
                rw [h, if_pos (by rw [ho.length_eq]; exact c3)]
                exact j4 x y Z hg _ (List.rel_append ho (.cons hP .nil))
            · refine ⟨S, k1, k2, Or.inl fun x y Z hg out0 ho => ?_⟩
              obtain ⟨P, _, h⟩ := eE x y Z hg out0
              exact ⟨_, h.trans (if_neg (by rw [ho]; exact c3))⟩
          · refine ⟨S, k1, k2, Or.inl fun x y Z hg out0 ho => ?_⟩
            obtain ⟨P, _, h⟩ := eE x y Z hg out0
            exact ⟨_, h.trans (if_neg c2)⟩

end

/-! ### the whole tracer -/

theorem initCell_vary {m : Mesh K} {lev : K} {x y : Arr K} {Z : Arr (Option K)} (ha : Alike m x y Z lev) (reg : Option (Nat → Bool))
    (j : Nat) (s : Init) (i : Nat) : initCell (vary m x y Z) reg lev j s i = initCell m reg lev j s i := by
  have h1 : initFlags (vary m x y Z) reg lev i j s.data = initFlags m reg lev i j s.data := by
    unfold initFlags
    have := ha
    unfold Alike at this
    simp only [this]
    rfl
  unfold initCell
  rw [h1]
  rfl

theorem dataInit_vary {m : Mesh K} {lev : K} {x y : Arr K} {Z : Arr (Option K)} (ha : Alike m x y Z lev) (reg : Option (Nat → Bool))
    (junk : Arr Cell) (sjunk : Arr (Option Bool)) : dataInit (vary m x y Z) reg lev junk sjunk = dataInit m reg lev junk sjunk := by
  have h1 : ∀ j, initCell (vary m x y Z) reg lev j = initCell m reg lev j := fun j => by
    funext s i; exact initCell_vary ha reg j s i
  have h2 : initRow (vary m x y Z) reg lev = initRow m reg lev := by
    funext s j
    unfold initRow
    rw [h1]
    rfl
  unfold dataInit
  rw [h2, ha]
  rfl

/-- the tracer with any rounding: the data for which the exact one takes the same way -/
theorem traceRawR_any {m : Mesh K} {lev : K} (hneg : ∀ k : Int, m.high lev k = m.high lev (k.toNat : Int)) (mask : Option (Nat → Bool))
    (fuel : Nat) (junk : Arr Cell) (sjunk : Arr (Option Bool)) (rjunk : Nat → Bool) (rnd : K → K) {reg : Option (Nat → Bool)}
    (hreg : reg = mask.map fun k => maskZones m.imax m.jmax k rjunk) :
    ∃ S, Sadl m (mkTopo m reg lev) S ∧
      ((∀ x y Z, Good m reg lev S x y Z → ∃ er, traceRaw (vary m x y Z) mask lev fuel junk sjunk rjunk = .error er) ∨
      ∃ r, traceRawR rnd m mask lev fuel junk sjunk rjunk = .ok r ∧ ∀ x y Z, Good m reg lev S x y Z →
        ∃ r0, traceRaw (vary m x y Z) mask lev fuel junk sjunk rjunk = .ok r0 ∧
          List.Forall₂ (List.Forall₂ (Twin2 rnd m reg lev x y Z)) r0 r) := by
  have hr : RegOK m reg := by
    rw [hreg]
    cases mask with
    | none => exact regOK_none m
    | some k => exact regOK_mask m k rjunk
  obtain ⟨fl, hi⟩ := dataInit_spec m reg lev junk sjunk
  have eR : traceRawR rnd m mask lev fuel junk sjunk rjunk = (do
      let (nparts, ntotal, s) ← pass1R rnd m lev fuel fuel (dataInit m reg lev junk sjunk) 0 0
      pass2R rnd m lev fuel nparts ntotal fuel s [] 0) := by
    rw [hreg]; rfl
  have eE : ∀ x y Z, Alike m x y Z lev → traceRaw (vary m x y Z) mask lev fuel junk sjunk rjunk = (do
      let (nparts, ntotal, s) ← pass1 (vary m x y Z) lev fuel fuel (dataInit m reg lev junk sjunk) 0 0
      pass2 (vary m x y Z) lev fuel nparts ntotal fuel s [] 0) := by
    intro x y Z ha
    rw [hreg, ← dataInit_vary ha]; rfl
  by_cases hc : (dataInit m reg lev junk sjunk).count = 0
  · refine ⟨⟨fun _ => none⟩, fun i j _ h => absurd rfl h, ?_⟩
    cases fuel with
    | zero => left; intro x y Z hg; exact ⟨.fuel, by rw [eE x y Z hg.1]; rfl⟩
    | succ f =>
      right
      refine ⟨[], ?_, fun x y Z hg => ⟨[], ?_, .nil⟩⟩
      · rw [eR, pass1R, no_marksR rnd hi hc]
        simp only [bind, Except.bind, pure, Except.pure, if_true]
        rw [pass2R, no_marksR rnd hi hc]
        simp [bind, Except.bind, pure, Except.pure]
      · obtain ⟨fl', hi'⟩ := dataInit_spec (vary m x y Z) reg lev junk sjunk
        rw [dataInit_vary hg.1] at hi'
        rw [eE x y Z hg.1, pass1, no_marks hi' hc]
        simp only [bind, Except.bind, pure, Except.pure, if_true]
        rw [pass2, no_marks hi' hc]
        simp [bind, Except.bind, pure, Except.pure]
  · have hf0 := init_fine ⟨junk, sjunk, rfl⟩ hi hr hc
    have hf : FineA m reg lev (marked m (dataInit m reg lev junk sjunk).data) (dataInit m reg lev junk sjunk) := by
      refine ⟨hf0.link, fun i j hb h => ?_, hf0.marks⟩
      have := range_ijmax hb
      exact absurd (hi.saddle hc _ this.1 this.2) h
    have mo := inited_marksOK hi hr
    have hM : ∀ a, marked m (dataInit m reg lev junk sjunk).data a → (mkTopo m reg lev).ex a = true ∧ (mkTopo m reg lev).cut a :=
      fun a ha => ⟨mo.ex a ha, mo.cut a ha⟩
    obtain ⟨S, k1, k2, k3⟩ := pass1R_any hneg hM rnd fuel fuel (dataInit m reg lev junk sjunk) 0 0 hf
    rcases k3 with k3 | ⟨⟨np, nt, s1⟩, k3, k4, k5, k6⟩
    · refine ⟨S, k2, Or.inl fun x y Z hg => ?_⟩
      obtain ⟨er, h⟩ := k3 x y Z hg
      exact ⟨er, by rw [eE x y Z hg.1, h]; rfl⟩
    · rw [k3] at eR
      simp only [bind, Except.bind] at eR eE
      obtain ⟨S', j1, j2, j3⟩ := pass2R_any hneg hM rnd fuel np nt fuel s1 [] 0 k5
      have j1' : Ext S S' := by rw [← show s1.saddle = S from k4]; exact j1
      refine ⟨S', j2, ?_⟩
      rcases j3 with j3 | ⟨r, j3, j4⟩
      · left
        intro x y Z hg
        rw [eE x y Z hg.1, k6 x y Z (hg.of_ext j1')]
        exact j3 x y Z hg [] rfl
      · right
        refine ⟨r, eR.trans j3, fun x y Z hg => ?_⟩
        rw [eE x y Z hg.1, k6 x y Z (hg.of_ext j1')]
        exact j4 x y Z hg [] .nil

end Trackeddy.Cntr
