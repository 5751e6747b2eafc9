import Verif.Proofs.Cntr.Sides

/-!
The result of the tracer in terms of sides of grid cells.
-/
namespace Trackeddy.Cntr

open Trackeddy.Spec

variable {K : Type} [Field K] [LinearOrder K]

theorem path_eq (t : Topo) (r : Nat) (e : DE) : path t r e = (List.range (r + 1)).map fun s => t.next^[s] e := by
  apply List.ext_getElem?
  intro s
  by_cases hs : s ≤ r
  · rw [path_get t r e s hs]
    simp only [List.getElem?_map, List.getElem?_range (show s < r + 1 by omega), Option.map_some]
  · rw [List.getElem?_eq_none (by rw [path_length]; omega), List.getElem?_eq_none (by simp; omega)]

theorem coded_eq {α : Type} (pts : List α) : coded pts = pts.zip (codes pts.length) := by
  unfold coded codes
  apply List.ext_getElem
  · simp
  · intro i h1 h2
    simp

theorem Topo.side_norm (t : Topo) (e : DE) : (t.norm e).side = e.side := by
  unfold Topo.norm
  split
  · rfl
  · exact e.side_rev

section
variable {m : Mesh K} {mask : Option (Nat → Bool)} {rjunk : Nat → Bool} {lev : K}

/-- the sides along a route -/
def sidesAlong (t : Topo) (w : DE) (r : Nat) : List Side := (path t r w).map DE.side

theorem along_eq (t : Topo) (w : DE) (r : Nat) :
    sidesAlong t w r = (List.range (r + 1)).map fun s => (t.next^[s] w).side := by
  unfold sidesAlong; rw [path_eq, List.map_map]; rfl

theorem along_head (t : Topo) (w : DE) (r : Nat) : (sidesAlong t w r).head? = some w.side := by
  rw [along_eq, List.range_succ_eq_map]; rfl

theorem along_last (t : Topo) (w : DE) (r : Nat) : (sidesAlong t w r).getLast? = some (t.next^[r] w).side := by
  rw [along_eq, List.range_succ, List.map_append]
  simp

theorem Route.ex_rev {t : Topo} {w : DE} {r : Nat} (h : Route t w r) {s : Nat} (h0 : 0 < s) (hs : s ≤ r) :
    t.ex (t.next^[s] w).rev = true := by
  obtain ⟨q, rfl⟩ : ∃ q, s = q + 1 := ⟨s - 1, by omega⟩
  rw [Topo.iter_ex_rev]
  exact h.mid q (by omega)

theorem Route.ex_or {t : Topo} {w : DE} {r : Nat} (h : Route t w r) {s : Nat} (hs : s ≤ r) :
    t.ex (t.next^[s] w) = true ∨ t.ex (t.next^[s] w).rev = true := by
  rcases Nat.lt_or_ge s r with hlt | hge
  · exact Or.inl (h.mid s hlt)
  · exact Or.inr (h.ex_rev (by have := h.pos; omega) hs)

theorem Route.head_last {w : DE} {r : Nat} (h : Route (topoOf m mask rjunk lev) w r) :
    w.side = ((topoOf m mask rjunk lev).next^[r] w).side ↔ (topoOf m mask rjunk lev).ex w.rev = true := by
  set t := topoOf m mask rjunk lev with ht
  constructor
  · intro hs
    by_contra hx
    have hx : t.ex w.rev = false := by simpa using hx
    have hl := h.stop hx
    have h0 := h.mid 0 (by have := h.pos; omega)
    simp only [Function.iterate_zero, id_eq] at h0
    obtain ⟨a0, a1⟩ := ex_nonneg (Or.inl h0)
    obtain ⟨b0, b1⟩ := ex_nonneg (h.ex_or le_rfl)
    rcases side_inj a0 a1 b0 b1 hs with he | he
    · rw [← he, h0] at hl; simp at hl
    · have he' : t.next^[r] w = w.rev := by
        have := congrArg DE.rev he
        rw [DE.rev_rev] at this
        exact this.symm
      rcases Topo.up_or h.cut with hu | hu
      · have := hu.iter r
        rw [he'] at this
        exact hu.not_rev this
      · have := hu.iter_rev r
        rw [he', DE.rev_rev] at this
        exact this.not_rev hu
  · intro hx
    rw [h.close hx]

/-- a closed walk has at least four steps -/
theorem next_far (t : Topo) (e : DE) : t.next e ≠ e ∧ t.next (t.next e) ≠ e ∧ t.next (t.next (t.next e)) ≠ e := by
  have h1 := t.next_cases e
  have h2 := t.next_cases (t.next e)
  have h3 := t.next_cases (t.next (t.next e))
  generalize t.next (t.next (t.next e)) = c at h3 ⊢
  generalize t.next (t.next e) = b at h2 h3 ⊢
  generalize t.next e = a at h1 h2 ⊢
  have key : ∀ {d d' : DE}, d' = d.turnF ∨ d' = d.turnB ∨ d' = d.straight →
      (d.d = .R ∧ (d'.d = .D ∧ d'.i = d.i + 1 ∧ d'.j = d.j - 1 ∨ d'.d = .U ∧ d'.i = d.i + 1 ∧ d'.j = d.j ∨
        d'.d = .R ∧ d'.i = d.i + 1 ∧ d'.j = d.j)) ∨
      (d.d = .L ∧ (d'.d = .U ∧ d'.i = d.i ∧ d'.j = d.j ∨ d'.d = .D ∧ d'.i = d.i ∧ d'.j = d.j - 1 ∨
        d'.d = .L ∧ d'.i = d.i - 1 ∧ d'.j = d.j)) ∨
      (d.d = .U ∧ (d'.d = .R ∧ d'.i = d.i ∧ d'.j = d.j + 1 ∨ d'.d = .L ∧ d'.i = d.i - 1 ∧ d'.j = d.j + 1 ∨
        d'.d = .U ∧ d'.i = d.i ∧ d'.j = d.j + 1)) ∨
      (d.d = .D ∧ (d'.d = .L ∧ d'.i = d.i - 1 ∧ d'.j = d.j ∨ d'.d = .R ∧ d'.i = d.i ∧ d'.j = d.j ∨
        d'.d = .D ∧ d'.i = d.i ∧ d'.j = d.j - 1)) := by
    rintro ⟨i, j, _ | _ | _ | _⟩ d' (rfl | rfl | rfl) <;> simp [DE.turnF, DE.turnB, DE.straight]
  have k1 := key h1
  have k2 := key h2
  have k3 := key h3
  clear h1 h2 h3 key
  refine ⟨?_, ?_, ?_⟩
  · rintro rfl
    rcases k1 with ⟨u, k | k | k⟩ | ⟨u, k | k | k⟩ | ⟨u, k | k | k⟩ | ⟨u, k | k | k⟩ <;> rw [u] at k <;> simp at k <;> omega
  · rintro rfl
    rcases k1 with ⟨u, k | k | k⟩ | ⟨u, k | k | k⟩ | ⟨u, k | k | k⟩ | ⟨u, k | k | k⟩ <;>
      rcases k2 with ⟨v, l | l | l⟩ | ⟨v, l | l | l⟩ | ⟨v, l | l | l⟩ | ⟨v, l | l | l⟩ <;>
      rw [u] at l <;> rw [v] at k <;> simp at k l <;> omega
  · rintro rfl
    rcases k1 with ⟨u, k | k | k⟩ | ⟨u, k | k | k⟩ | ⟨u, k | k | k⟩ | ⟨u, k | k | k⟩ <;>
      rcases k2 with ⟨v, l | l | l⟩ | ⟨v, l | l | l⟩ | ⟨v, l | l | l⟩ | ⟨v, l | l | l⟩ <;>
      rw [v] at k <;> simp at k <;>
      rcases k3 with ⟨w, o | o | o⟩ | ⟨w, o | o | o⟩ | ⟨w, o | o | o⟩ | ⟨w, o | o | o⟩ <;>
      rw [w] at l <;> rw [u] at o <;> simp at l o <;> omega

theorem Route.contour {w : DE} {r : Nat} (h : Route (topoOf m mask rjunk lev) w r) :
    (gridOf m mask).IsContour lev (sidesAlong (topoOf m mask rjunk lev) w r) := by
  set t := topoOf m mask rjunk lev with ht
  have hpos := h.pos
  refine ⟨?_, ?_, ?_, ?_⟩
  · rw [along_eq]; simp; omega
  · rw [List.isChain_iff_getElem]
    intro i hi
    have hlen : (sidesAlong t w r).length = r + 1 := by rw [along_eq]; simp
    have hr : i < r := by omega
    have e1 : ∀ (k : Nat) (hk : k < (sidesAlong t w r).length), (sidesAlong t w r)[k] = (t.next^[k] w).side := by
      intro k hk
      simp only [along_eq, List.getElem_map, List.getElem_range]
    rw [e1, e1, Function.iterate_succ_apply']
    exact joined_next (h.mid i hr) (iter_cut h.cut i)
  · rw [along_head, along_last]
    intro heq
    have hx := h.head_last.mp (Option.some.inj heq)
    have hc := h.close hx
    rw [along_eq]
    simp only [List.length_map, List.length_range]
    obtain ⟨f1, f2, f3⟩ := next_far t w
    by_contra hlt
    have h4 : r = 1 ∨ r = 2 ∨ r = 3 := by omega
    rcases h4 with rfl | rfl | rfl
    · exact f1 hc
    · exact f2 hc
    · exact f3 hc
  · rw [along_head, along_last]
    intro hne
    have hx : t.ex w.rev = false := by
      rw [← Bool.not_eq_true]
      intro hx
      exact hne (congrArg some (h.head_last.mpr hx))
    intro e he
    simp only [Option.some.injEq] at he
    rcases he with rfl | rfl
    · have h0 := h.mid 0 (by omega)
      exact side_border h0 hx
    · rw [← DE.side_rev]
      refine side_border (rjunk := rjunk) (lev := lev) (h.ex_rev (by omega) le_rfl) ?_
      rw [DE.rev_rev]
      exact h.stop hx

theorem Route.body_perm {w : DE} {r : Nat} (h : Route (topoOf m mask rjunk lev) w r) :
    (body (sidesAlong (topoOf m mask rjunk lev) w r)).Perm ((edgesOf (topoOf m mask rjunk lev) w r).map DE.side) := by
  set t := topoOf m mask rjunk lev with ht
  have hpos := h.pos
  have he : (edgesOf t w r).map DE.side = (List.range (lenOf t w r)).map fun s => (t.next^[s] w).side := by
    unfold edgesOf
    rw [List.map_map]
    apply List.map_congr_left
    intro s _
    simp only [Function.comp, Topo.side_norm]
  rw [he]
  unfold body lenOf
  rw [along_head, along_last]
  simp only [Option.some.injEq]
  simp only [show (w.side = (t.next^[r] w).side ↔ t.ex w.rev = true) from h.head_last]
  split
  · rename_i hx
    rw [along_eq, List.range_succ_eq_map, List.map_cons, List.tail_cons, List.map_map]
    obtain ⟨q, rfl⟩ : ∃ q, r = q + 1 := ⟨r - 1, by omega⟩
    have h1 : List.range (q + 1) = List.range q ++ [q] := List.range_succ
    have h2 : (List.range (q + 1)).map (fun s => (t.next^[s] w).side) = w.side :: (List.range q).map ((fun s => (t.next^[s] w).side) ∘ Nat.succ) := by
      rw [List.range_succ_eq_map, List.map_cons, List.map_map]; rfl
    rw [h2, h1, List.map_append]
    have h3 : List.map ((fun s => (t.next^[s] w).side) ∘ Nat.succ) [q] = [w.side] := by
      simp only [List.map_cons, List.map_nil, Function.comp, Nat.succ_eq_add_one]
      rw [h.close hx]
    rw [h3]
    exact List.perm_append_singleton _ _
  · rw [along_eq]

theorem trace_curves [DecidableEq K] (m : Mesh K) (mask : Option (Nat → Bool)) (lev : K) {fuel : Nat} (junk : Arr Cell)
    (sjunk : Arr (Option Bool)) (rjunk : Nat → Bool) (hfuel : 4 * (m.imax * m.jmax) + 2 ≤ fuel) :
    ∃ (W : List DE) (L : DE → Nat), (∀ w ∈ W, Route (topoOf m mask rjunk lev) w (L w)) ∧
      (∃ S, Runs m.imax (topoOf m mask rjunk lev) (St.init (marked m
        (dataInit m (mask.map fun k => maskZones m.imax m.jmax k rjunk) lev junk sjunk).data)) 0 S ∧ S.W = W) ∧
      Contours (gridOf m mask) lev (W.map fun w => sidesAlong (topoOf m mask rjunk lev) w (L w)) ∧
      trace m mask lev fuel junk sjunk rjunk =
        .ok ((W.map fun w => sidesAlong (topoOf m mask rjunk lev) w (L w)).map fun es =>
          (es.map ((gridOf m mask).point lev)).zip (codes es.length)) := by
  obtain ⟨W, L, t, ht, h1, h2, h3, h4, h5⟩ := trace_spec m mask lev junk sjunk rjunk hfuel
  have ht' : t = topoOf m mask rjunk lev := ht
  subst ht'
  have hperm : ((W.map fun w => sidesAlong (topoOf m mask rjunk lev) w (L w)).flatMap body).Perm
      ((W.flatMap fun w => edgesOf (topoOf m mask rjunk lev) w (L w)).map DE.side) := by
    rw [List.flatMap_map, List.map_flatMap]
    exact List.Perm.flatMap_left _ fun w hw => (h2 w hw).body_perm
  refine ⟨W, L, h2, h5, ⟨?_, ?_, ?_⟩, ?_⟩
  · intro es hes
    rw [List.mem_map] at hes
    obtain ⟨w, hw, rfl⟩ := hes
    exact (h2 w hw).contour
  · rw [hperm.nodup_iff]
    apply List.Nodup.map_on _ h3
    intro a ha b hb hab
    obtain ⟨ua, xa⟩ := (h4 a).mp ha
    obtain ⟨ub, xb⟩ := (h4 b).mp hb
    obtain ⟨a0, a1⟩ := ex_nonneg xa
    obtain ⟨b0, b1⟩ := ex_nonneg xb
    rcases side_inj a0 a1 b0 b1 hab with he | he
    · exact he
    · rw [he] at ua
      exact absurd ua ub.not_rev
  · intro e
    rw [hperm.mem_iff, List.mem_map]
    constructor
    · rintro ⟨d, hd, rfl⟩
      obtain ⟨ud, xd⟩ := (h4 d).mp hd
      obtain ⟨d0, d1⟩ := ex_nonneg xd
      exact ⟨(side_inMesh (rjunk := rjunk) (lev := lev) d0 d1).mpr xd, (side_crossed (rjunk := rjunk) d0 d1).mpr ud.cut⟩
    · rintro ⟨hm, hc⟩
      obtain ⟨d, rfl, hu, hx⟩ := side_surj (rjunk := rjunk) hm hc
      exact ⟨d, (h4 d).mpr ⟨hu, hx⟩, rfl⟩
  · rw [h1, List.map_map]
    congr 1
    apply List.map_congr_left
    intro w hw
    simp only [Function.comp]
    rw [coded_eq]
    have hlen : (sidesAlong (topoOf m mask rjunk lev) w (L w)).length = (path (topoOf m mask rjunk lev) (L w) w).length := by
      unfold sidesAlong; simp
    rw [List.length_map, hlen]
    congr 1
    unfold sidesAlong
    rw [List.map_map]
    apply List.map_congr_left
    intro e he
    rw [path_eq, List.mem_map] at he
    obtain ⟨s, hs, rfl⟩ := he
    rw [List.mem_range] at hs
    obtain ⟨d0, d1⟩ := ex_nonneg ((h2 w hw).ex_or (show s ≤ L w by omega))
    exact vtx_point d0 d1 (iter_cut (h2 w hw).cut s)

theorem trace_contours [DecidableEq K] (m : Mesh K) (mask : Option (Nat → Bool)) (lev : K) {fuel : Nat} (junk : Arr Cell)
    (sjunk : Arr (Option Bool)) (rjunk : Nat → Bool) (hfuel : 4 * (m.imax * m.jmax) + 2 ≤ fuel) :
    ∃ cs : List (List Side), Contours (gridOf m mask) lev cs ∧
      trace m mask lev fuel junk sjunk rjunk =
        .ok (cs.map fun es => (es.map ((gridOf m mask).point lev)).zip (codes es.length)) := by
  obtain ⟨W, L, _, _, h1, h2⟩ := trace_curves m mask lev junk sjunk rjunk hfuel
  exact ⟨_, h1, h2⟩

end
end Trackeddy.Cntr
