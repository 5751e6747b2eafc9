import Verif.Proofs.Cntr.SecondPass

/-!
`reorder` when all kinds are `kind_zone`: the points in their order, the first with code 1, the others with code 2.
-/
namespace Trackeddy.Cntr

variable {K : Type} [Field K] [LinearOrder K]

/-- codes of a contour in one piece -/
def coded {α : Type} (pts : List α) : List (α × Nat) := pts.zipIdx.map fun q => (q.1, if q.2 = 0 then 1 else 2)

theorem findSegs_rest (n M : Nat) (hM : 2 ≤ M) (k : Nat) : ∀ i, 1 ≤ k → i + k = n →
    findSegs n (fun _ => 0) M (List.range' i k) (some 0) [] = some [(0, n - 1)] := by
  induction k with
  | zero => intro i h; omega
  | succ k ih =>
    intro i _ hi
    rw [List.range'_succ, findSegs]
    rcases Nat.eq_zero_or_pos k with h0 | hp
    · subst h0
      rw [if_pos (Or.inr (by omega)), if_neg (by simp; omega)]
      simp only [List.range'_zero, findSegs, List.nil_append, Option.some.injEq, List.cons.injEq, Prod.mk.injEq, true_and, and_true]
      omega
    · rw [if_neg (by rintro (h | h) <;> omega)]
      exact ih (i + 1) (by omega) (by omega)

theorem findSegs_zero (n : Nat) (hn : 2 ≤ n) :
    findSegs n (fun _ => 0) (n / 2 + 1) (List.range n) none [] = some [(0, n - 1)] := by
  obtain ⟨k, rfl⟩ : ∃ k, n = k + 1 := ⟨n - 1, by omega⟩
  rw [List.range_eq_range', List.range'_succ, findSegs, if_pos ⟨by omega, by omega⟩]
  exact findSegs_rest (k + 1) _ (by omega) k (0 + 1) (by omega) (by omega)

theorem reorder_zero [DecidableEq K] (pts : List (Vertex K)) (h : 2 ≤ pts.length) :
    reorder pts (fun _ => 0) = .ok (coded pts) := by
  unfold reorder
  rw [findSegs_zero _ h]
  have hidx : subpathIndices [(0, pts.length - 1)] = List.range pts.length := by
    simp only [subpathIndices, segIndices, if_true, List.flatMap_nil, List.append_nil]
    rw [show pts.length - 1 + 1 - 0 = pts.length by omega]
    simp
  have hcd : ((subpathIndices [(0, pts.length - 1)]).zipIdx.map fun (q : Nat × Nat) =>
      ((pts[q.1]?).join, if q.2 = 0 then 1 else 2)) = coded pts := by
    rw [hidx]
    unfold coded
    apply List.ext_getElem
    · simp
    · intro i h1 h2
      simp only [List.length_map, List.length_zipIdx, List.length_range] at h1
      simp only [List.getElem_map, List.getElem_zipIdx, List.getElem_range, zero_add]
      rw [List.getElem?_eq_getElem h1]
      rfl
  simp only [subpaths, takeSubpath, List.length_singleton, List.flatMap_cons, List.flatMap_nil, List.append_nil]
  rw [hcd]
  have hlen : (coded pts).length = pts.length := by unfold coded; simp
  rw [if_neg (by omega)]

theorem mapM_ok {ε α β : Type} (f : α → Except ε β) (g : α → β) (l : List α) (h : ∀ a ∈ l, f a = .ok (g a)) :
    l.mapM f = .ok (l.map g) := by
  induction l with
  | nil => rfl
  | cons a l ih =>
    rw [List.mapM_cons, h a (by simp), ih (fun b hb => h b (by simp [hb]))]
    rfl

/-- the result of `trace` -/
theorem trace_spec [DecidableEq K] (m : Mesh K) (mask : Option (Nat → Bool)) (lev : K) {fuel : Nat} (junk : Arr Cell)
    (sjunk : Arr (Option Bool)) (rjunk : Nat → Bool) (hfuel : 4 * (m.imax * m.jmax) + 2 ≤ fuel) :
    ∃ (W : List DE) (L : DE → Nat) (t : Topo), t = mkTopo m (mask.map fun k => maskZones m.imax m.jmax k rjunk) lev ∧
      trace m mask lev fuel junk sjunk rjunk = .ok (W.map fun w => coded ((path t (L w) w).map (vtx m lev))) ∧
      (∀ w ∈ W, Route t w (L w)) ∧ (W.flatMap fun w => edgesOf t w (L w)).Nodup ∧
      (∀ e, e ∈ (W.flatMap fun w => edgesOf t w (L w)) ↔ t.up e ∧ (t.ex e = true ∨ t.ex e.rev = true)) ∧
      ∃ S, Runs m.imax t (St.init (marked m
        (dataInit m (mask.map fun k => maskZones m.imax m.jmax k rjunk) lev junk sjunk).data)) 0 S ∧ S.W = W := by
  obtain ⟨W, L, t, ht, h1, h2, h3, h4, h5⟩ := traceRaw_spec m mask lev junk sjunk rjunk hfuel
  refine ⟨W, L, t, ht, ?_, h2, h3, h4, h5⟩
  unfold trace
  rw [h1]
  simp only [bind, Except.bind]
  rw [mapM_ok _ coded]
  · rw [List.map_map]; rfl
  · intro p hp
    rw [List.mem_map] at hp
    obtain ⟨w, hw, rfl⟩ := hp
    apply reorder_zero
    rw [List.length_map, path_length]
    have := (h2 w hw).pos
    omega

end Trackeddy.Cntr
