import Verif.Spec.RoundedContours
import Verif.Proofs.Cntr.Rounded
import Verif.Proofs.Cntr.Extract
import Verif.Props.Rounding
import Verif.Props.Contour

/-!
C134: the contours computed with rounding as a whole.
-/
namespace Trackeddy

open Cntr Spec

variable {K : Type} [Field K] [LinearOrder K] [IsStrictOrderedRing K]

theorem saddleClear_agree {G H : Grid K} (h : Agree G H) {lev u : K} (hc : SaddleClear H lev u) : SaddleClear G lev u := by
  intro c hcell hall p q r s h1 h2 h3 h4
  have hb := hcell
  obtain ⟨b1, b2, _⟩ := hb
  refine hc c (h.isCell hcell) (fun s hs => (h.crossed hcell hs).mp (hall s hs)) p q r s ?_ ?_ ?_ ?_
  · rw [← h.z _ (by simp only; omega) (by simp only; omega)]; exact h1
  · rw [← h.z _ (by simp only; omega) (by simp only; omega)]; exact h2
  · rw [← h.z _ (by simp only; omega) (by simp only; omega)]; exact h3
  · rw [← h.z _ (by simp only; omega) (by simp only; omega)]; exact h4

theorem grid_z (m : Mesh K) (mask : Option (Nat → Bool)) (a b : ℕ) :
    m.z (idx m.imax ((a : Int), (b : Int))) = (gridOf m mask).z (a, b) := by
  unfold gridOf idx
  simp only
  congr 1

section
variable {u : K} {m : Mesh K} {mask : Option (Nat → Bool)} {rjunk : Nat → Bool} {lev : K}

/-- the margin in a saddle cell, for the corners in any order -/
theorem clear_corners (hc : SaddleClear (gridOf m mask) lev u) {a b : ℕ} (hcell : (gridOf m mask).IsCell (a, b))
    {P Q R S : Bool} (hP : P = (topoOf m mask rjunk lev).h ((a : Int), (b : Int)))
    (hQ : Q = (topoOf m mask rjunk lev).h ((a : Int) + 1, (b : Int)))
    (hR : R = (topoOf m mask rjunk lev).h ((a : Int), (b : Int) + 1))
    (hS : S = (topoOf m mask rjunk lev).h ((a : Int) + 1, (b : Int) + 1)) (c1 : S = P) (c2 : R = Q) (c3 : Q = !P)
    {p q r s : K} (z1 : m.z (idx m.imax ((a : Int), (b : Int))) = some p)
    (z2 : m.z (idx m.imax ((a : Int) + 1, (b : Int))) = some q) (z3 : m.z (idx m.imax ((a : Int), (b : Int) + 1)) = some r)
    (z4 : m.z (idx m.imax ((a : Int) + 1, (b : Int) + 1)) = some s) :
    ∃ M, |p| ≤ M ∧ |q| ≤ M ∧ |r| ≤ M ∧ |s| ≤ M ∧ 5 * u * M < |(p + q + r + s) / 4 - lev| := by
  have hab : ∀ i j : ℕ, (gridOf m mask).Above lev (i, j) ↔ (topoOf m mask rjunk lev).h ((i : Int), (j : Int)) = true :=
    fun i j => above_iff (rjunk := rjunk) (p := ((i : Int), (j : Int))) ⟨by simp, by simp⟩
  refine ⟨max (max |p| |q|) (max |r| |s|), by simp, by simp, by simp, by simp, ?_⟩
  refine hc (a, b) hcell ?_ p q r s ?_ ?_ ?_ ?_
  · intro s hs
    simp only [sidesOf, List.mem_cons, List.not_mem_nil, or_false] at hs
    unfold Grid.Crossed
    rcases hs with rfl | rfl | rfl | rfl <;>
      simp only [Side.a, Side.b, if_true, Bool.false_eq_true, if_false, hab] <;> push_cast <;>
      simp only [← hP, ← hQ, ← hR, ← hS, c1, c2, c3] <;> cases P <;> simp
  · rw [← grid_z]; exact z1
  · rw [← grid_z]; push_cast; exact z2
  · rw [← grid_z]; push_cast; exact z3
  · rw [← grid_z]; push_cast; exact z4

theorem centre_same (h0 : 0 ≤ u) (h1 : u ≤ 1 / 100) {rnd : K → K} (hr : RoundsTo u rnd) {p q r s : Option K}
    (h : ∀ v w x y, p = some v → q = some w → r = some x → s = some y →
      ∃ M, |v| ≤ M ∧ |w| ≤ M ∧ |x| ≤ M ∧ |y| ≤ M ∧ 5 * u * M < |(v + w + x + y) / 4 - lev|) :
    centreHighR rnd lev p q r s = centreHigh lev p q r s := by
  cases p with
  | none => rfl
  | some v =>
    cases q with
    | none => rfl
    | some w =>
      cases r with
      | none => rfl
      | some x =>
        cases s with
        | none => rfl
        | some y =>
          obtain ⟨M, a1, a2, a3, a4, a5⟩ := h v w x y rfl rfl rfl rfl
          rw [Bool.eq_iff_iff, C134_saddle h0 h1 hr a1 a2 a3 a4 a5]
          simp [centreHigh]

/-- every saddle cell is decided as with exact arithmetic -/
theorem sadR_of_clear (h0 : 0 ≤ u) (h1 : u ≤ 1 / 100) {rnd : K → K} (hr : RoundsTo u rnd)
    (hc : SaddleClear (gridOf m mask) lev u) : SadR rnd m lev (topoOf m mask rjunk lev) := by
  intro e hex hcut hq1 hq0
  have hz := hex
  unfold Topo.ex at hz
  rw [zone_iff] at hz
  obtain ⟨z1, z2, hcell⟩ := hz
  obtain ⟨a, ha⟩ := Int.eq_ofNat_of_zero_le (show 0 ≤ e.zn.1 - 1 by omega)
  obtain ⟨b, hb⟩ := Int.eq_ofNat_of_zero_le (show 0 ≤ e.zn.2 - 1 by omega)
  have e1 : e.zn.1.toNat - 1 = a := by omega
  have e2 : e.zn.2.toNat - 1 = b := by omega
  rw [e1, e2] at hcell
  clear e1 e2 z1 z2 hex
  apply centre_same h0 h1 hr
  intro v w x y hv hw hx hy
  obtain ⟨P, hP⟩ : ∃ P, P = (topoOf m mask rjunk lev).h ((a : Int), (b : Int)) := ⟨_, rfl⟩
  obtain ⟨Q, hQ⟩ : ∃ P, P = (topoOf m mask rjunk lev).h ((a : Int) + 1, (b : Int)) := ⟨_, rfl⟩
  obtain ⟨R, hR⟩ : ∃ P, P = (topoOf m mask rjunk lev).h ((a : Int), (b : Int) + 1) := ⟨_, rfl⟩
  obtain ⟨S, hS⟩ : ∃ P, P = (topoOf m mask rjunk lev).h ((a : Int) + 1, (b : Int) + 1) := ⟨_, rfl⟩
  unfold Topo.cut at hcut
  rcases e with ⟨i, j, _ | _ | _ | _⟩ <;>
    simp only [DE.zn, DE.p0, DE.p1, DE.rev, DE.q0, DE.q1] at ha hb hcut hq1 hq0 hv hw hx hy
  · obtain ⟨rfl, rfl⟩ : i = a ∧ j = b + 1 := by omega
    simp only [add_sub_cancel_right] at hcut hq1 hq0 hv hw hx hy
    rw [← hP, ← hR] at hcut
    rw [← hR, ← hQ] at hq1
    rw [← hR, ← hS] at hq0
    obtain ⟨M, a1, a2, a3, a4, a5⟩ := clear_corners hc hcell hP hQ hR hS
      (by clear * - hcut hq1 hq0; revert P Q R S; decide) (by clear * - hcut hq1 hq0; revert P Q R S; decide)
      (by clear * - hcut hq1 hq0; revert P Q R S; decide) hx hy hv hw
    exact ⟨M, a3, a4, a1, a2, by rw [show v + w + x + y = x + y + v + w by ring]; exact a5⟩
  · obtain ⟨rfl, rfl⟩ : i = a + 1 ∧ j = b + 1 := by omega
    simp only [add_sub_cancel_right] at hcut hq1 hq0 hv hw hx hy
    rw [← hQ, ← hS] at hcut
    rw [← hR, ← hQ] at hq1
    rw [← hP, ← hQ] at hq0
    obtain ⟨M, a1, a2, a3, a4, a5⟩ := clear_corners hc hcell hP hQ hR hS
      (by clear * - hcut hq1 hq0; revert P Q R S; decide) (by clear * - hcut hq1 hq0; revert P Q R S; decide)
      (by clear * - hcut hq1 hq0; revert P Q R S; decide) hw hv hy hx
    exact ⟨M, a2, a1, a4, a3, by rw [show v + w + x + y = w + v + y + x by ring]; exact a5⟩
  · obtain ⟨rfl, rfl⟩ : i = a + 1 ∧ j = b := by omega
    simp only [add_sub_cancel_right] at hcut hq1 hq0 hv hw hx hy
    rw [← hQ, ← hP] at hcut
    rw [← hP, ← hS] at hq1
    rw [← hP, ← hR] at hq0
    obtain ⟨M, a1, a2, a3, a4, a5⟩ := clear_corners hc hcell hP hQ hR hS
      (by clear * - hcut hq1 hq0; revert P Q R S; decide) (by clear * - hcut hq1 hq0; revert P Q R S; decide)
      (by clear * - hcut hq1 hq0; revert P Q R S; decide) hv hx hw hy
    exact ⟨M, a1, a3, a2, a4, by rw [show v + w + x + y = v + x + w + y by ring]; exact a5⟩
  · obtain ⟨rfl, rfl⟩ : i = a + 1 ∧ j = b + 1 := by omega
    simp only [add_sub_cancel_right] at hcut hq1 hq0 hv hw hx hy
    rw [← hS, ← hR] at hcut
    rw [← hP, ← hS] at hq1
    rw [← hQ, ← hS] at hq0
    obtain ⟨M, a1, a2, a3, a4, a5⟩ := clear_corners hc hcell hP hQ hR hS
      (by clear * - hcut hq1 hq0; revert P Q R S; decide) (by clear * - hcut hq1 hq0; revert P Q R S; decide)
      (by clear * - hcut hq1 hq0; revert P Q R S; decide) hy hw hx hv
    exact ⟨M, a4, a2, a3, a1, by rw [show v + w + x + y = y + w + x + v by ring]; exact a5⟩

/-- the computed vertex of a crossed edge is near the exact one -/
theorem near_of_twin (h0 : 0 ≤ u) (h1 : u ≤ 1 / 100) {rnd : K → K} (hr : RoundsTo u rnd) {v v' : Vertex K}
    (h : Twin rnd m lev (topoOf m mask rjunk lev) v v') : VertexNear (gridOf m mask) lev u v v' := by
  obtain ⟨e, hex, hcut, rfl, rfl⟩ := h
  obtain ⟨n0, n1⟩ := ex_nonneg (Or.inl hex)
  refine ⟨e.side, (side_inMesh n0 n1).mpr (Or.inl hex), (side_crossed n0 n1).mpr hcut, vtx_point n0 n1 hcut, ?_⟩
  have hx0 : (gridOf m mask).x (toN e.p0) = m.x (idx m.imax e.p0) := by rw [← idx_toN n0]; rfl
  have hx1 : (gridOf m mask).x (toN e.p1) = m.x (idx m.imax e.p1) := by rw [← idx_toN n1]; rfl
  have hy0 : (gridOf m mask).y (toN e.p0) = m.y (idx m.imax e.p0) := by rw [← idx_toN n0]; rfl
  have hy1 : (gridOf m mask).y (toN e.p1) = m.y (idx m.imax e.p1) := by rw [← idx_toN n1]; rfl
  have hcut' : m.high lev (idx m.imax e.p0) ≠ m.high lev (idx m.imax e.p1) := hcut
  unfold Mesh.high at hcut'
  unfold vtx vtxR
  cases ha : m.z (idx m.imax e.p0) with
  | none => left; exact ⟨rfl, rfl⟩
  | some a =>
    cases hb : m.z (idx m.imax e.p1) with
    | none => left; exact ⟨rfl, rfl⟩
    | some b =>
      right
      rw [ha, hb] at hcut'
      have hc : a ≤ lev ∧ lev < b ∨ b ≤ lev ∧ lev < a := by
        simp only [ne_eq, decide_eq_decide] at hcut'
        rcases le_or_gt a lev with g | g <;> rcases le_or_gt b lev with g' | g'
        · exact absurd ⟨fun h => absurd h (not_lt.mpr g), fun h => absurd h (not_lt.mpr g')⟩ hcut'
        · exact Or.inl ⟨g, g'⟩
        · exact Or.inr ⟨g', g⟩
        · exact absurd ⟨fun _ => g', fun _ => g⟩ hcut'
      have hne : b - a ≠ 0 := by rcases hc with ⟨g, g'⟩ | ⟨g, g'⟩ <;> intro e <;> linarith
      have cr : ∀ x0 x1 : K, IsCrossing lev a b x0 x1 ((lev - a) / (b - a) * (x1 - x0) + x0) := by
        intro x0 x1
        unfold IsCrossing
        field_simp
        ring
      obtain ⟨x', y', g1, g2, g3⟩ := C134_vertex h0 h1 hr hc (cr (m.x (idx m.imax e.p0)) (m.x (idx m.imax e.p1)))
        (cr (m.y (idx m.imax e.p0)) (m.y (idx m.imax e.p1)))
      refine ⟨_, _, x', y', rfl, g1, ?_, ?_⟩
      · rcases side_ends n0 n1 with ⟨s1, s2⟩ | ⟨s1, s2⟩
        · rw [s1, s2, hx0, hx1]; exact g2
        · rw [s1, s2, hx0, hx1, abs_sub_comm (m.x _) (m.x _), max_comm |m.x _|]; exact g2
      · rcases side_ends n0 n1 with ⟨s1, s2⟩ | ⟨s1, s2⟩
        · rw [s1, s2, hy0, hy1]; exact g3
        · rw [s1, s2, hy0, hy1, abs_sub_comm (m.y _) (m.y _), max_comm |m.y _|]; exact g3

theorem near_agree {G H : Grid K} (h : Agree G H) {v v' : Option (K × K)} (hv : VertexNear G lev u v v') :
    VertexNear H lev u v v' := by
  obtain ⟨e, ⟨c, c1, c2⟩, h2, h3, h4⟩ := hv
  have hm : G.InMesh e := ⟨c, c1, c2⟩
  obtain ⟨⟨a1, a2⟩, ⟨b1, b2⟩⟩ := side_inside c1 c2
  refine ⟨e, h.inMesh.mp hm, (h.crossed c1 c2).mp h2, h3.trans (h.point hm), ?_⟩
  rw [← h.x _ a1 a2, ← h.x _ b1 b2, ← h.y _ a1 a2, ← h.y _ b1 b2]
  exact h4

end

theorem take_build {parts : List (List (Vertex K × Nat))} : (buildList parts).take ((buildList parts).length / 2) =
    parts.map fun p => Item.points (p.map Prod.fst) := by
  unfold buildList
  rw [List.length_append, List.length_map, List.length_map, ← two_mul, Nat.mul_div_cancel_left _ (by norm_num)]
  exact List.take_left' (by simp)

theorem drop_build {parts : List (List (Vertex K × Nat))} : (buildList parts).drop ((buildList parts).length / 2) =
    parts.map fun p => Item.codes (p.map Prod.snd) := by
  unfold buildList
  rw [List.length_append, List.length_map, List.length_map, ← two_mul, Nat.mul_div_cancel_left _ (by norm_num)]
  exact List.drop_left' (by simp)

/-- **C134** Contours computed in floating point: if no saddle cell has its mean within `5u` times the size of its
corners of the level, `extract_contours` returns as many contours as with exact arithmetic, each with as many vertices
and the same path codes, and every computed vertex lies next to the exact one: both are missing, or they differ by at
most `6u` times the extent of the crossed side of the cell and `u` times the size of its coordinates. The sequence in
which contours and vertices are listed is the same. Saddle cells nearer to the level can be decided differently
(`C134_refuted_contours`). -/
theorem C134_partial [DecidableEq K] {X Y : NdArr K} {Z : NdArr (Option K)} (h : SameShape X Y Z none) {u lev : K}
    (h0 : 0 ≤ u) (h1 : u ≤ 1 / 100) {rnd : K → K} (hr : RoundsTo u rnd) (hc : SaddleClear (arrGrid X Y Z none) lev u) :
    ∃ cs, Traced (arrGrid X Y Z none) lev cs ∧ ∀ fuel mem, bound Z ≤ fuel → ∃ parts : List (List (Option (K × K))),
      extractContours X Y Z lev fuel mem = .ok (pointArrays (arrGrid X Y Z none) lev cs, codeArrays cs) ∧
      extractContoursR rnd X Y Z lev fuel mem = .ok (parts.map .points, codeArrays cs) ∧
      List.Forall₂ (fun es vs => List.Forall₂ (VertexNear (arrGrid X Y Z none) lev u)
        (es.map ((arrGrid X Y Z none).point lev)) vs) cs parts := by
  obtain ⟨cs, h2, h3⟩ := extract_traced h lev
  refine ⟨cs, h2, fun fuel mem hf => ?_⟩
  have hag := agree_mesh h
  obtain ⟨r, r', q1, q2, q3⟩ := traceR_sim (meshOf X Y Z) none lev mem.data mem.saddle mem.reg (fuel := fuel) hf
    (sadR_of_clear (mask := none) (rjunk := mem.reg) h0 h1 hr (saddleClear_agree hag hc))
  have e1 := h3 fuel mem hf
  have e2 := e1
  unfold extractContours cntrTrace at e2
  rw [cntrInit_ok h] at e2
  simp only [Option.map_none, bind, Except.bind] at e2
  rw [q1] at e2
  simp only [pure, Except.pure] at e2
  rw [take_build, drop_build] at e2
  simp only [Except.ok.injEq, Prod.mk.injEq, List.map_map, pointArrays] at e2
  have e3 : r = cs.map fun es => es.map ((arrGrid X Y Z none).point lev) := by
    have : r.map (Item.points (K := K)) = (cs.map fun es => es.map ((arrGrid X Y Z none).point lev)).map Item.points := by
      rw [List.map_map]
      refine Eq.trans ?_ e2.1
      apply List.map_congr_left
      intro l _
      simp only [Function.comp]
      rw [coded_fst]
    exact List.map_injective_iff.mpr (fun a b hab => by injection hab) this
  subst e3
  have hlen : r'.map List.length = cs.map List.length := by
    have : ∀ {a b : List (List (Vertex K))}, List.Forall₂ (List.Forall₂ (Twin rnd (meshOf X Y Z) lev
        (topoOf (meshOf X Y Z) none mem.reg lev))) a b → b.map List.length = a.map List.length := by
      intro a b hab
      induction hab with
      | nil => rfl
      | cons hd _ ih => rw [List.map_cons, List.map_cons, ih, hd.length_eq]
    rw [this q3, List.map_map]
    apply List.map_congr_left
    intro l _
    simp
  refine ⟨r', e1, ?_, ?_⟩
  · unfold extractContoursR cntrTraceR
    rw [cntrInit_ok h]
    simp only [Option.map_none, bind, Except.bind]
    rw [q2]
    simp only [pure, Except.pure]
    rw [take_build, drop_build, List.map_map, List.map_map]
    congr 2
    · apply List.map_congr_left
      intro l _
      simp only [Function.comp]
      rw [coded_fst]
    · have g1 : r'.map ((fun p : List (Vertex K × Nat) => Item.codes (K := K) (p.map Prod.snd)) ∘ coded) =
          (r'.map List.length).map fun n => Item.codes (codes n) := by
        rw [List.map_map]
        apply List.map_congr_left
        intro l _
        simp only [Function.comp]
        rw [coded_snd]
        rfl
      rw [g1, hlen, List.map_map]
      rfl
  · rw [List.forall₂_map_left_iff] at q3
    exact q3.imp fun _ _ hab => hab.imp fun _ _ htw => near_agree hag (near_of_twin h0 h1 hr htw)

def exSadX : NdArr ℚ := ⟨2, 2, fun _ i => i⟩
def exSadY : NdArr ℚ := ⟨2, 2, fun j _ => j⟩

/-- a saddle cell with mean 0.475 and corners that are not doubles -/
def exSaddle : NdArr (Option ℚ) := ⟨2, 2, fun j i => some (if i = j then 9 / 10 - j / 5 else (1 + i) / 10)⟩

theorem exSaddle_clear : SaddleClear (arrGrid exSadX exSadY exSaddle none) (3 / 10) ((1 / 2) ^ 53) := by
  rintro ⟨i, j⟩ ⟨h1, h2, _⟩ _ p q r s hp hq hr hs
  simp only [arrGrid, exSaddle, exSadX, exSadY] at h1 h2
  obtain rfl : i = 0 := by omega
  obtain rfl : j = 0 := by omega
  simp [arrGrid, exSaddle, exSadX, exSadY] at hp hq hr hs
  subst hp hq hr hs
  norm_num [abs_of_pos]

/-- the hypotheses are met by doubles on a map with a saddle cell -/
example : ∃ cs, Traced (arrGrid exSadX exSadY exSaddle none) (3 / 10) cs ∧
    ∀ fuel mem, bound exSaddle ≤ fuel → ∃ parts : List (List (Option (ℚ × ℚ))),
      extractContours exSadX exSadY exSaddle (3 / 10) fuel mem =
        .ok (pointArrays (arrGrid exSadX exSadY exSaddle none) (3 / 10) cs, codeArrays cs) ∧
      extractContoursR double exSadX exSadY exSaddle (3 / 10) fuel mem =
        .ok (parts.map .points, codeArrays cs) ∧
      List.Forall₂ (fun es vs => List.Forall₂
        (VertexNear (arrGrid exSadX exSadY exSaddle none) (3 / 10) ((1 / 2) ^ 53))
        (es.map ((arrGrid exSadX exSadY exSaddle none).point (3 / 10))) vs) cs parts :=
  C134_partial ⟨rfl, rfl, by simp⟩ (by norm_num) (by norm_num) double_roundsTo exSaddle_clear

/-- the computed contours differ from the exact ones -/
example : extractContours exSadX exSadY exSaddle (3 / 10) 18 exMem = .ok
      ([.points [some (6 / 7, 0), some (1, 1 / 5)], .points [some (0, 3 / 4), some (1 / 3, 1)]], [.codes [1, 2], .codes [1, 2]]) ∧
    extractContoursR double exSadX exSadY exSaddle (3 / 10) 18 exMem = .ok
      ([.points [some (1930114126015927 / 2251799813685248, 0), some (1, 3602879701896397 / 18014398509481984)],
        .points [some (0, 3 / 4), some (1501199875790165 / 4503599627370496, 1)]], [.codes [1, 2], .codes [1, 2]]) := by
  decide +kernel

/-- **C134** (refuted without the margin) There is a map of doubles, with a level that is a double, on which the contours
computed in doubles pair the crossings differently: a contour from the lower side of the cell leaves through the right
side with exact arithmetic, and through the left side with doubles. -/
theorem C134_refuted_contours : ∃ (X Y : NdArr ℚ) (Z : NdArr (Option ℚ)) (lev : ℚ), SameShape X Y Z none ∧ double lev = lev ∧
    (∀ j < Z.rows, ∀ i < Z.cols, ∃ z, Z.get j i = some z ∧ double z = z ∧ double (X.get j i) = X.get j i ∧
      double (Y.get j i) = Y.get j i) ∧
    ∃ (a b c d a' b' c' d' : ℚ), (∀ t ∈ [a, b, c, d, a', b', c', d'], |t - 1 / 2| < 1 / 1000) ∧
      extractContours X Y Z lev (bound Z) exMem = .ok
        ([.points [some (a, 0), some (1, b)], .points [some (0, c), some (d, 1)]], [.codes [1, 2], .codes [1, 2]]) ∧
      extractContoursR double X Y Z lev (bound Z) exMem = .ok
        ([.points [some (a', 0), some (0, b')], .points [some (1, c'), some (d', 1)]], [.codes [1, 2], .codes [1, 2]]) := by
  refine ⟨⟨2, 2, fun _ i => i⟩, ⟨2, 2, fun j _ => j⟩, ⟨2, 2, fun j i => some (if i = j then 2 ^ 53 else 1)⟩, 2 ^ 52,
    ⟨rfl, rfl, by simp⟩, by decide +kernel, fun j hj i hi => ⟨_, rfl, ?_⟩,
    4503599627370496 / 9007199254740991, 4503599627370495 / 9007199254740991, 4503599627370496 / 9007199254740991,
    4503599627370495 / 9007199254740991, 4503599627370497 / 9007199254740992, 1 / 2, 9007199254740991 / 18014398509481984,
    4503599627370495 / 9007199254740992, ?_, by decide +kernel, by decide +kernel⟩
  · revert j i
    decide +kernel
  · decide +kernel

end Trackeddy
