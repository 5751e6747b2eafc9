import Verif.Model.Generator
import Mathlib.Tactic.Linarith
import Mathlib.Tactic.FieldSimp
import Mathlib.Tactic.NormNum
import Mathlib.Tactic.Positivity
import Mathlib.Tactic.IntervalCases

/-!
C51 and C52 (position selection), C53 (random walk), C54 (layout), C55 (makeGaussian), C71 (first frame).
-/
namespace Trackeddy

/-! ### C52 -/

theorem placeLoop_stuck (bad : Pos → Prop) (draw : Nat → Pos) (fuel count : Nat) (checker : Prop) (p : Pos)
    (h : 10000 ≤ count) : placeLoop bad draw fuel count checker p = none := by
  induction fuel generalizing count checker p with
  | zero => unfold placeLoop; rw [if_pos (Or.inr h)]
  | succ fuel ih => unfold placeLoop; rw [if_pos (Or.inr h)]; exact ih _ _ _ (by omega)

theorem placeLoop_some (bad : Pos → Prop) (draw : Nat → Pos) (fuel count : Nat) (checker : Prop) (p q : Pos)
    (h : placeLoop bad draw fuel count checker p = some q) :
    (q = p ∧ ¬ checker ∧ count < 10000) ∨
    (checker ∧ ∃ k, count ≤ k ∧ k + 1 < 10000 ∧ (∀ j, count ≤ j → j < k → bad (draw j)) ∧ ¬ bad (draw k) ∧
      q = draw k) := by
  induction fuel generalizing count checker p with
  | zero =>
    unfold placeLoop at h
    split at h
    · simp at h
    · rename_i hc
      push Not at hc
      left
      exact ⟨by simpa using h.symm, hc.1, hc.2⟩
  | succ fuel ih =>
    unfold placeLoop at h
    split at h
    · rename_i hc
      have hlt : count + 1 < 10000 := by
        by_contra hge
        rw [placeLoop_stuck bad draw fuel (count + 1) _ _ (by omega)] at h
        simp at h
      have hch : checker := by
        rcases hc with hc | hc
        · exact hc
        · omega
      right
      refine ⟨hch, ?_⟩
      rcases ih _ _ _ h with ⟨h1, h2, h3⟩ | ⟨h0, k, h1, h2, h3, h4, h5⟩
      · exact ⟨count, le_refl _, h3, fun j a b => by omega, h2, h1⟩
      · refine ⟨k, by omega, h2, fun j a b => ?_, h4, h5⟩
        rcases Nat.eq_or_lt_of_le a with rfl | hlt'
        · exact h0
        · exact h3 j hlt' b
    · rename_i hc
      push Not at hc
      left
      exact ⟨by simpa using h.symm, hc.1, hc.2⟩

theorem placeLoop_reach (bad : Pos → Prop) (draw : Nat → Pos) (d count : Nat) (p : Pos) (checker : Prop) (hch : checker)
    (hk : count + d + 1 < 10000) (hbad : ∀ j, count ≤ j → j < count + d → bad (draw j)) (hgood : ¬ bad (draw (count + d))) :
    placeLoop bad draw (d + 1) count checker p = some (draw (count + d)) := by
  induction d generalizing count p checker with
  | zero =>
    unfold placeLoop
    rw [if_pos (Or.inl hch)]
    unfold placeLoop
    rw [if_neg]
    · rfl
    · push Not
      exact ⟨hgood, by omega⟩
  | succ d ih =>
    unfold placeLoop
    rw [if_pos (Or.inl hch)]
    rw [ih (count + 1) _ _ (hbad count (le_refl _) (by omega)) (by omega)
      (fun j a b => hbad j (by omega) (by omega)) (by rwa [show count + 1 + d = count + (d + 1) by omega])]
    rw [show count + 1 + d = count + (d + 1) by omega]

/-- C52, positive part: the search for a position of one eddy ends exactly if one of the first 9999 draws is
acceptable, and then with the first such draw. Missing: it does not give up, see `C52_refuted`. -/
theorem C52_partial (bad : Pos → Prop) (draw : Nat → Pos) (p q : Pos) :
    (∃ fuel, placeLoop bad draw fuel 0 True p = some q) ↔
      ∃ k < 9999, ¬ bad (draw k) ∧ (∀ j < k, bad (draw j)) ∧ q = draw k := by
  constructor
  · rintro ⟨fuel, h⟩
    rcases placeLoop_some bad draw fuel 0 True p q h with ⟨_, h, _⟩ | ⟨_, k, _, h2, h3, h4, h5⟩
    · exact absurd trivial h
    · exact ⟨k, by omega, h4, fun j hj => h3 j (Nat.zero_le _) hj, h5⟩
  · rintro ⟨k, hk, hg, hb, rfl⟩
    refine ⟨k + 1, ?_⟩
    have := placeLoop_reach bad draw k 0 p True trivial (by omega) (fun j _ hj => hb j (by omega)) (by simpa using hg)
    simpa using this

/-- C52 is false: if the first 9999 draws are not acceptable the search never ends, even if every later draw is
acceptable. -/
theorem C52_refuted (bad : Pos → Prop) (draw : Nat → Pos) (p : Pos) (hbad : ∀ j < 9999, bad (draw j)) (fuel : Nat) :
    placeLoop bad draw fuel 0 True p = none := by
  cases h : placeLoop bad draw fuel 0 True p with
  | none => rfl
  | some q =>
    obtain ⟨k, hk, hg, _⟩ := (C52_partial bad draw p q).mp ⟨fuel, h⟩
    exact absurd (hbad k hk) hg

/-- a grid with a single point and two eddies with b > a: no position is ever acceptable, so the search does not
end for any sequence of draws -/
theorem C52_refuted_witness (g : Gen) (ha : 0 < g.away) (hab : g.a < g.b) (draw : Nat → Pos)
    (hd : ∀ k, draw k = (0, 0)) (fuel : Nat) :
    placeOne (n := 2) g true (fun _ => (0, 0)) draw fuel (fun _ => (0, 0)) 0 = none := by
  unfold placeOne
  rw [Option.map_eq_none_iff]
  have ht : ∀ P : Prop, (P ∨ true = true) = True := by simp
  rw [ht]
  apply C52_refuted
  intro j _
  rw [hd]
  have hz : Function.update (fun _ => ((0, 0) : Pos)) (0 : Fin 2) (0, 0) = fun _ => (0, 0) := by
    funext k; by_cases hk : k = 0 <;> simp [Function.update, hk]
  rw [hz]
  have hns : ¬ { j : Fin 2 | posDist g.x g.y (0, 0) (0, 0) = 0 }.Subsingleton := by
    intro hs
    have := hs (x := 0) (by simp [posDist]) (y := 1) (by simp [posDist])
    exact absurd this (by decide)
  refine ⟨0, g.away * g.a, ?_, Or.inr (mul_lt_mul_of_pos_left hab ha)⟩
  simp only
  rw [if_pos (by simp [posDist]), if_neg hns]

/-! ### C51 -/

theorem posDist_self (x y : Nat → ℝ) (p : Pos) : posDist x y p p = 0 := by simp [posDist]

theorem posDist_comm (x y : Nat → ℝ) (p q : Pos) : posDist x y p q = posDist x y q p := by
  unfold posDist; congr 1; ring

/-- what the check guarantees for a pair of positions -/
def Apart (g : Gen) (p q : Pos) : Prop :=
  (posDist g.x g.y p q = 0 ∧ g.away * g.b ≤ g.away * g.a) ∨
  (g.away * g.a ≤ posDist g.x g.y p q ∧ g.away * g.b ≤ posDist g.x g.y p q)

theorem Apart.symm {g : Gen} {p q : Pos} (h : Apart g p q) : Apart g q p := by
  unfold Apart at *; rwa [posDist_comm g.x g.y q p]

theorem apart_of_not_tooClose {g : Gen} {n : Nat} {locs : Fin n → Pos} {i j : Fin n} (hij : i ≠ j)
    (h : ¬ g.tooClose locs i) : Apart g (locs i) (locs j) := by
  unfold Gen.tooClose at h
  simp only [not_exists, not_and] at h
  by_cases hz : posDist g.x g.y (locs i) (locs j) = 0
  · have hns : ¬ { j | posDist g.x g.y (locs i) (locs j) = 0 }.Subsingleton := by
      intro hs
      exact hij (hs (x := i) (posDist_self _ _ _) (y := j) hz)
    have := h j (g.away * g.a) (by rw [if_pos hz, if_neg hns])
    push Not at this
    exact Or.inl ⟨hz, this.2⟩
  · have := h j _ (by rw [if_neg hz])
    push Not at this
    exact Or.inr this

theorem apart_of_not_first {g : Gen} {n : Nat} {p : Pos} {locs : Fin n → Pos} (h : ¬ g.tooCloseFirst p locs) (j : Fin n) :
    Apart g p (locs j) := by
  unfold Gen.tooCloseFirst at h
  simp only [not_exists] at h
  have := h j
  push Not at this
  by_cases hz : posDist g.x g.y p (locs j) = 0
  · rw [if_pos hz] at this
    exact Or.inl ⟨hz, this.2⟩
  · rw [if_neg hz] at this
    exact Or.inr this

theorem placeOne_apart {g : Gen} {n : Nat} {loc : Bool} {shown : Fin n → Pos} {draw : Nat → Pos} {fuel : Nat}
    {locs locs' : Fin n → Pos} {i : Fin n} (h : placeOne g loc shown draw fuel locs i = some locs') :
    (∀ j, j ≠ i → locs' j = locs j) ∧ ∀ j, j ≠ i → Apart g (locs' i) (locs' j) := by
  unfold placeOne at h
  rw [Option.map_eq_some_iff] at h
  obtain ⟨q, hq, rfl⟩ := h
  refine ⟨fun j hj => by simp [Function.update, hj], ?_⟩
  intro j hj
  rcases placeLoop_some _ _ _ _ _ _ _ hq with ⟨h1, h2, _⟩ | ⟨_, k, _, _, _, h4, h5⟩
  · push Not at h2
    obtain ⟨h2, h3⟩ := h2
    subst h1
    rw [if_neg h3] at h2
    have := apart_of_not_first h2 j
    simpa [Function.update, hj] using this
  · rw [h5]
    exact apart_of_not_tooClose (Ne.symm hj) h4

theorem checkPosition_apart {g : Gen} {n : Nat} {loc : Bool} {shown : Fin n → Fin n → Pos} {draws : Fin n → Nat → Pos}
    {fuel : Nat} (is : List (Fin n)) (locs res : Fin n → Pos) (S : Fin n → Prop)
    (inv : ∀ i, S i → ∀ j, j ≠ i → Apart g (locs i) (locs j))
    (h : checkPosition g loc shown draws fuel is locs = some res) :
    ∀ i, (S i ∨ i ∈ is) → ∀ j, j ≠ i → Apart g (res i) (res j) := by
  induction is generalizing locs S with
  | nil =>
    unfold checkPosition at h
    injection h with h
    subst h
    intro i hi
    rcases hi with hi | hi
    · exact inv i hi
    · simp at hi
  | cons k is ih =>
    unfold checkPosition at h
    rw [Option.bind_eq_some_iff] at h
    obtain ⟨locs', h1, h2⟩ := h
    obtain ⟨e1, e2⟩ := placeOne_apart h1
    have := ih locs' (fun i => S i ∨ i = k) (by
      rintro i hi j hj
      by_cases hik : i = k
      · subst hik; exact e2 j hj
      · by_cases hjk : j = k
        · subst hjk; exact (e2 i hik).symm
        · rw [e1 i hik, e1 j hjk]
          rcases hi with hi | hi
          · exact inv i hi j hj
          · exact absurd hi hik) h2
    intro i hi
    apply this i
    rcases hi with hi | hi
    · exact Or.inl (Or.inl hi)
    · rcases List.mem_cons.mp hi with rfl | hi
      · exact Or.inl (Or.inr rfl)
      · exact Or.inr hi

/-- C51, positive part: when the position selection ends, any two eddies are at least `away_val` times the larger
radius apart or at exactly the same point, the latter only if a ≥ b. Missing: eddies at the same point,
see `C51_refuted`. -/
theorem C51_partial (g : Gen) (hw : 0 < g.away) (n : Nat) (loc : Bool) (shown : Fin n → Fin n → Pos)
    (draws : Fin n → Nat → Pos) (fuel : Nat) (locs res : Fin n → Pos)
    (h : checkPosition g loc shown draws fuel (List.finRange n) locs = some res) (i j : Fin n) (hij : i ≠ j) :
    (posDist g.x g.y (res i) (res j) = 0 ∧ g.b ≤ g.a) ∨
    g.away * max g.a g.b ≤ posDist g.x g.y (res i) (res j) := by
  rcases checkPosition_apart _ locs res (fun _ => False) (fun i hi => hi.elim) h i (Or.inr (List.mem_finRange i)) j
    (Ne.symm hij) with ⟨h1, h2⟩ | ⟨h1, h2⟩
  · exact Or.inl ⟨h1, le_of_mul_le_mul_left h2 hw⟩
  · right
    rcases max_choice g.a g.b with e | e <;> rw [e] <;> assumption

/-- C51 when a < b: no two eddies overlap. -/
theorem C51_partial_b_larger (g : Gen) (hw : 0 < g.away) (hab : g.a < g.b) (n : Nat) (loc : Bool)
    (shown : Fin n → Fin n → Pos) (draws : Fin n → Nat → Pos) (fuel : Nat) (locs res : Fin n → Pos)
    (h : checkPosition g loc shown draws fuel (List.finRange n) locs = some res) (i j : Fin n) (hij : i ≠ j) :
    g.away * g.b ≤ posDist g.x g.y (res i) (res j) := by
  rcases C51_partial g hw n loc shown draws fuel locs res h i j hij with ⟨_, h⟩ | h
  · exact absurd hab (not_lt.mpr h)
  · rwa [max_eq_right hab.le] at h

/-- one-degree axes, radii 1 -/
noncomputable def sampleGen : Gen := ⟨fun i => i, fun j => j, 1, 1, 5⟩

theorem sample_dist : (5 : ℝ) ≤ posDist sampleGen.x sampleGen.y (0, 0) (30, 40) := by
  unfold posDist sampleGen
  apply Real.le_sqrt_of_sq_le
  norm_num

theorem sample_ok {n : Nat} (locs : Fin n → Pos) (i : Fin n)
    (h : ∀ j, posDist sampleGen.x sampleGen.y (locs i) (locs j) = 0 ∨
      5 ≤ posDist sampleGen.x sampleGen.y (locs i) (locs j)) : ¬ sampleGen.tooClose locs i := by
  rintro ⟨j, v, hv, hlt⟩
  have ha : sampleGen.away * sampleGen.a = 5 := by norm_num [sampleGen]
  have hb : sampleGen.away * sampleGen.b = 5 := by norm_num [sampleGen]
  rw [ha] at hv
  rw [ha, hb] at hlt
  have hlt' : v < 5 := hlt.elim id id
  simp only at hv
  by_cases hz : posDist sampleGen.x sampleGen.y (locs i) (locs j) = 0
  · rw [if_pos hz] at hv
    split at hv
    · exact absurd hv (by simp)
    · injection hv with hv
      linarith
  · rw [if_neg hz] at hv
    injection hv with hv
    rcases h j with h | h
    · exact hz h
    · linarith

/-- C51 is false: with equal radii two eddies that draw the same point are accepted there. -/
theorem C51_refuted : ∃ (g : Gen) (shown : Fin 2 → Fin 2 → Pos) (draws : Fin 2 → Nat → Pos) (locs res : Fin 2 → Pos),
    0 < g.away ∧ 0 < g.a ∧ 0 < g.b ∧
    checkPosition g true shown draws 1 (List.finRange 2) locs = some res ∧ res 0 = res 1 := by
  refine ⟨sampleGen, fun _ _ => (0, 0), fun _ _ => (0, 0), fun i => if i = 0 then (7, 7) else (30, 40), fun _ => (0, 0),
    by norm_num [sampleGen], by norm_num [sampleGen], by norm_num [sampleGen], ?_, rfl⟩
  have step : ∀ (l0 : Fin 2 → Pos) (i : Fin 2), ¬ sampleGen.tooClose (Function.update l0 i (0, 0)) i →
      placeOne sampleGen true (fun _ => (0, 0)) (fun _ => (0, 0)) 1 l0 i = some (Function.update l0 i (0, 0)) := by
    intro l0 i hn
    unfold placeOne
    have := placeLoop_reach (fun q => sampleGen.tooClose (Function.update l0 i q) i) (fun _ => (0, 0)) 0 0 (l0 i)
      (sampleGen.tooCloseFirst (l0 i) (if true = true then (fun _ => (0, 0)) else l0) ∨ true = true) (Or.inr rfl)
      (by norm_num) (fun j _ hj => by omega) hn
    rw [this]
    rfl
  have e0 : Function.update (fun i : Fin 2 => if i = 0 then ((7, 7) : Pos) else (30, 40)) 0 (0, 0) =
      fun i => if i = 0 then (0, 0) else (30, 40) := by
    funext k; by_cases hk : k = 0 <;> simp [Function.update, hk]
  have e1 : Function.update (fun i : Fin 2 => if i = 0 then ((0, 0) : Pos) else (30, 40)) 1 (0, 0) = fun _ => (0, 0) := by
    funext k
    by_cases hk : k = 1
    · simp [hk]
    · have : k = 0 := by omega
      simp [this]
  have hl : List.finRange 2 = [0, 1] := by decide
  rw [hl]
  unfold checkPosition
  rw [step _ 0 (by
    rw [e0]
    apply sample_ok
    intro j
    by_cases hj : j = 0
    · left; simp only [hj, if_true]; exact posDist_self _ _ _
    · right; simp only [if_true, if_neg hj]; exact sample_dist)]
  rw [Option.bind_some, e0]
  unfold checkPosition
  rw [step _ 1 (by
    rw [e1]
    apply sample_ok
    intro j
    left; exact posDist_self _ _ _)]
  rw [Option.bind_some, e1]
  rfl

/-- the hypotheses of `C51_partial` are met: the selection of `C51_refuted` ends -/
example : ∃ (shown : Fin 2 → Fin 2 → Pos) (draws : Fin 2 → Nat → Pos) (locs res : Fin 2 → Pos) (g : Gen),
    0 < g.away ∧ checkPosition g true shown draws 1 (List.finRange 2) locs = some res := by
  obtain ⟨g, shown, draws, locs, res, h, _, _, h', _⟩ := C51_refuted
  exact ⟨shown, draws, locs, res, g, h, h'⟩

/-! ### C53 -/

/-- C53: a step moves each index by -steps, 0 or steps, and never stays in place unless steps = 0; it does not
fail for draws between 1 and 8. -/
theorem C53_king_move (p : Int × Int) (s : Int) (k1 k2 : Nat) (h1 : 1 ≤ k1 ∧ k1 ≤ 8) (h2 : 1 ≤ k2 ∧ k2 ≤ 8) :
    ∃ q, randomWalk p s k1 k2 = some q ∧ (q.1 - p.1 = -s ∨ q.1 - p.1 = 0 ∨ q.1 - p.1 = s) ∧
      (q.2 - p.2 = -s ∨ q.2 - p.2 = 0 ∨ q.2 - p.2 = s) ∧ (s ≠ 0 → q ≠ p) := by
  have hm : ∀ k, 1 ≤ k ∧ k ≤ 8 → ∃ m, move k s = some m ∧ (m.1 = -s ∨ m.1 = 0 ∨ m.1 = s) ∧
      (m.2 = -s ∨ m.2 = 0 ∨ m.2 = s) ∧ (s ≠ 0 → m ≠ (0, 0)) := by
    rintro k ⟨ha, hb⟩
    interval_cases k <;> refine ⟨_, rfl, ?_, ?_, ?_⟩ <;> simp
  obtain ⟨m1, e1, _⟩ := hm k1 h1
  obtain ⟨m2, e2, a, b, c⟩ := hm k2 h2
  refine ⟨(p.1 + m2.1, p.2 + m2.2), ?_, ?_, ?_, ?_⟩
  · unfold randomWalk; rw [e1, e2]; rfl
  · simpa using a
  · simpa using b
  · intro hs he
    apply c hs
    obtain ⟨p1, p2⟩ := p
    obtain ⟨m1, m2⟩ := m2
    simp only [Prod.mk.injEq] at he ⊢
    omega

/-- C53: each of the eight moves is possible, and only by one value of the second draw. -/
theorem C53_all_moves (p : Int × Int) (s : Int) (hs : s ≠ 0) (dx dy : Int) (hx : dx = -s ∨ dx = 0 ∨ dx = s)
    (hy : dy = -s ∨ dy = 0 ∨ dy = s) (hne : (dx, dy) ≠ (0, 0)) (k1 : Nat) (h1 : 1 ≤ k1 ∧ k1 ≤ 8) :
    ∃! k2, (1 ≤ k2 ∧ k2 ≤ 8) ∧ randomWalk p s k1 k2 = some (p.1 + dx, p.2 + dy) := by
  obtain ⟨m1, e1⟩ : ∃ m, move k1 s = some m := by
    obtain ⟨ha, hb⟩ := h1
    interval_cases k1 <;> exact ⟨_, rfl⟩
  have key : ∀ k2, randomWalk p s k1 k2 = some (p.1 + dx, p.2 + dy) ↔ move k2 s = some (dx, dy) := by
    intro k2
    unfold randomWalk
    rw [e1]
    cases move k2 s with
    | none => simp
    | some m =>
      obtain ⟨a, b⟩ := m
      simp
  simp only [key]
  have huniq : ∀ k, (1 ≤ k ∧ k ≤ 8) → ∀ k', (1 ≤ k' ∧ k' ≤ 8) → move k s = move k' s → k = k' := by
    rintro k ⟨a, b⟩ k' ⟨c, d⟩ h
    interval_cases k <;> interval_cases k' <;> simp [move] at h <;> first | rfl | omega
  have hex : ∃ k, (1 ≤ k ∧ k ≤ 8) ∧ move k s = some (dx, dy) := by
    rcases hx with rfl | rfl | rfl <;> rcases hy with rfl | rfl | rfl
    · exact ⟨5, by omega, rfl⟩
    · exact ⟨4, by omega, rfl⟩
    · exact ⟨6, by omega, rfl⟩
    · exact ⟨3, by omega, rfl⟩
    · exact absurd rfl hne
    · exact ⟨2, by omega, rfl⟩
    · exact ⟨7, by omega, rfl⟩
    · exact ⟨1, by omega, rfl⟩
    · exact ⟨8, by omega, rfl⟩
  obtain ⟨k, hk, he⟩ := hex
  exact ⟨k, ⟨hk, he⟩, fun k' ⟨hk', he'⟩ => huniq k' hk' k hk (he'.trans he.symm)⟩

example : randomWalk (10, 20) 3 1 5 = some (7, 17) := by decide
example : randomWalk (10, 20) 3 8 4 = some (7, 20) := by decide

/-! ### C54 -/

theorem ravel_length {K : Type} (f : Nat → Nat → K) (nx ny : Nat) : (ravelMesh f nx ny).length = ny * nx := by
  simp [ravelMesh, List.length_flatMap]

theorem ravel_get {K : Type} (f : Nat → Nat → K) (nx ny k : Nat) (hk : k < ny * nx) :
    (ravelMesh f nx ny)[k]? = some (f (k % nx) (k / nx)) := by
  induction ny with
  | zero => omega
  | succ h ih =>
    have hw : 0 < nx := by
      rcases Nat.eq_zero_or_pos nx with h0 | h0
      · subst h0; simp at hk
      · exact h0
    have e : ravelMesh f nx (h + 1) = ravelMesh f nx h ++ (List.range nx).map fun c => f c h := by
      simp [ravelMesh, List.range_succ]
    rw [e]
    rw [Nat.succ_mul] at hk
    by_cases hlt : k < h * nx
    · rw [List.getElem?_append_left (by rw [ravel_length]; exact hlt)]
      exact ih hlt
    · rw [List.getElem?_append_right (by rw [ravel_length]; omega), ravel_length]
      have hr : k - h * nx < nx := by omega
      have e1 : k / nx = h := by rw [Nat.div_eq_iff hw]; omega
      have e2 : k % nx = k - h * nx := by
        have := Nat.div_add_mod k nx
        rw [e1, Nat.mul_comm] at this
        omega
      rw [List.getElem?_map, List.getElem?_range hr, e1, e2]
      rfl

theorem reshape_mapM_ok {α β : Type} (l : List α) (g : α → Except PyErr β) (h : α → β) (hg : ∀ a ∈ l, g a = .ok (h a)) :
    l.mapM g = .ok (l.map h) := by
  induction l with
  | nil => rfl
  | cons a l ih =>
    rw [List.mapM_cons, hg a (by simp), ih fun b hb => hg b (by simp [hb])]
    rfl

theorem foldl_some {α : Type} (l : List α) (F : α → Nat → Nat → Option ℝ) (v : α → ℝ) (i j : Nat)
    (h : ∀ a ∈ l, F a i j = some (v a)) (s : ℝ) :
    (l.map F).foldl (fun acc f => acc.bind fun s => (f i j).map (s + ·)) (some s) = some (s + (l.map v).sum) := by
  induction l generalizing s with
  | nil => simp
  | cons a l ih =>
    rw [List.map_cons, List.foldl_cons, Option.bind_some, h a (by simp), Option.map_some,
      ih (fun b hb => h b (by simp [hb])), List.map_cons, List.sum_cons, add_assoc]

/-- the entry of a frame: where in the grid it is evaluated -/
theorem assemble_entry (xlen ylen m : Nat) (eddies : List (Nat → Nat → ℝ)) :
    ∃ F, assembleFrame xlen ylen m eddies = .ok F ∧ ∀ i j, i < xlen + 2 * m → j < ylen + 2 * m →
      F i j = some ((eddies.map fun f => f ((i * (ylen + 2 * m) + j) % (xlen + 2 * m))
        ((i * (ylen + 2 * m) + j) / (xlen + 2 * m))).sum) := by
  set nx := xlen + 2 * m with hnx
  set ny := ylen + 2 * m with hny
  have hm := reshape_mapM_ok eddies (fun f => reshape (ravelMesh f nx ny) nx ny)
    (fun f i j => if j < ny then (ravelMesh f nx ny)[i * ny + j]? else none) (by
      intro f _
      unfold reshape
      rw [if_pos (by rw [ravel_length, Nat.mul_comm])])
  refine ⟨_, by unfold assembleFrame; rw [hm]; rfl, ?_⟩
  intro i j hi hj
  unfold addFields
  have := foldl_some eddies (fun f i j => if j < ny then (ravelMesh f nx ny)[i * ny + j]? else none)
    (fun f => f ((i * ny + j) % nx) ((i * ny + j) / nx)) i j (by
      intro f _
      have hb : i * ny + j < ny * nx := by
        have : (i + 1) * ny ≤ nx * ny := Nat.mul_le_mul_right ny hi
        rw [Nat.add_mul, Nat.one_mul] at this
        rw [Nat.mul_comm ny nx]
        omega
      simp only [if_pos hj]
      exact ravel_get f nx ny _ hb) 0
  rw [zero_add] at this
  exact this

/-- C54, positive part: on a square grid entry (i, j) of a frame is the sum of the eddies at y number i and x
number j. Missing: other grids, and `reconstruct_field`. -/
theorem C54_partial (len m : Nat) (eddies : List (Nat → Nat → ℝ)) :
    ∃ F, assembleFrame len len m eddies = .ok F ∧ ∀ i j, i < len + 2 * m → j < len + 2 * m →
      F i j = some ((eddies.map fun f => f j i).sum) := by
  obtain ⟨F, h1, h2⟩ := assemble_entry len len m eddies
  refine ⟨F, h1, fun i j hi hj => ?_⟩
  rw [h2 i j hi hj]
  have hpos : 0 < len + 2 * m := by omega
  have e1 : (i * (len + 2 * m) + j) / (len + 2 * m) = i := by rw [Nat.div_eq_iff hpos]; omega
  have e2 : (i * (len + 2 * m) + j) % (len + 2 * m) = j := by
    rw [Nat.add_comm, Nat.add_mul_mod_self_right, Nat.mod_eq_of_lt hj]
  rw [e1, e2]

/-- C54 is false on every grid that is not square: entry (1, 0) of the frame is evaluated neither at x number 0
and y number 1 nor at x number 1 and y number 0. -/
theorem C54_refuted (xlen ylen m : Nat) (hne : xlen ≠ ylen) (hx : 2 ≤ xlen) (hy : 2 ≤ ylen) :
    ∃ c r, (c, r) ≠ (0, 1) ∧ (c, r) ≠ (1, 0) ∧ ∀ eddies : List (Nat → Nat → ℝ),
      ∃ F, assembleFrame xlen ylen m eddies = .ok F ∧ F 1 0 = some ((eddies.map fun f => f c r).sum) := by
  refine ⟨(ylen + 2 * m) % (xlen + 2 * m), (ylen + 2 * m) / (xlen + 2 * m), ?_, ?_, ?_⟩
  · intro h
    rw [Prod.mk.injEq] at h
    have := Nat.div_add_mod (ylen + 2 * m) (xlen + 2 * m)
    rw [h.1, h.2] at this
    omega
  · intro h
    rw [Prod.mk.injEq] at h
    have := Nat.div_add_mod (ylen + 2 * m) (xlen + 2 * m)
    rw [h.1, h.2] at this
    omega
  · intro eddies
    obtain ⟨F, h1, h2⟩ := assemble_entry xlen ylen m eddies
    refine ⟨F, h1, ?_⟩
    have := h2 1 0 (by omega) (by omega)
    simpa using this

/-- C54 is false for `reconstruct_field`: it raises `ValueError` whenever there is an eddy. -/
theorem C54_refuted_reconstruct (xlen ylen : Nat) (f : Nat → Nat → ℝ) (fs : List (Nat → Nat → ℝ)) :
    reconstruct xlen ylen (f :: fs) = .error .valueError := by
  unfold reconstruct
  have : reshape (ravelMesh f (xlen + 2 * 50) (ylen + 2 * 50)) xlen ylen = .error .valueError := by
    unfold reshape
    rw [if_neg]
    rw [ravel_length]
    intro h
    have h1 : xlen * ylen ≤ ylen * (xlen + 2 * 50) := by
      rw [Nat.mul_comm xlen ylen]; exact Nat.mul_le_mul_left _ (by omega)
    have h2 : (ylen + 2 * 50) * (xlen + 2 * 50) = ylen * (xlen + 2 * 50) + 2 * 50 * (xlen + 2 * 50) := Nat.add_mul _ _ _
    omega
  rw [List.mapM_cons, this]
  rfl

/-- three by two points without margin: entry (1, 0) is evaluated at x number 2 and y number 0 -/
example : (0 * 2 + 2) % 3 = 2 ∧ (0 * 2 + 2) / 3 = 0 := by decide

/-! ### C55 -/

/-- C55: the values lie in (0, 1], are 1 exactly at the centre and one half exactly at distance fwhm/2 from it. -/
theorem C55_shape (size : Nat) (fwhm : ℝ) (hf : 0 < fwhm) (x0 y0 : ℝ) (r c : Nat) :
    let v := makeGaussian size fwhm (some (x0, y0)) r c
    let d2 := ((c : ℝ) - x0) ^ 2 + ((r : ℝ) - y0) ^ 2
    0 < v ∧ v ≤ 1 ∧ (v = 1 ↔ (c : ℝ) = x0 ∧ (r : ℝ) = y0) ∧ (v = 1 / 2 ↔ Real.sqrt d2 = fwhm / 2) := by
  intro v d2
  have hv : v = Real.exp (-4 * Real.log 2 * d2 / fwhm ^ 2) := rfl
  have hd : 0 ≤ d2 := by positivity
  have hl : 0 < Real.log 2 := Real.log_pos (by norm_num)
  have hf2 : 0 < fwhm ^ 2 := by positivity
  refine ⟨?_, ?_, ?_, ?_⟩
  · rw [hv]; exact Real.exp_pos _
  · rw [hv, Real.exp_le_one_iff]
    apply div_nonpos_of_nonpos_of_nonneg _ hf2.le
    nlinarith
  · rw [hv, Real.exp_eq_one_iff, div_eq_zero_iff]
    constructor
    · rintro (h | h)
      · have h0 : d2 = 0 := by
          rcases mul_eq_zero.mp h with h | h
          · linarith
          · exact h
        have a1 : ((c : ℝ) - x0) ^ 2 = 0 := by
          have := sq_nonneg ((c : ℝ) - x0); have := sq_nonneg ((r : ℝ) - y0)
          change ((c : ℝ) - x0) ^ 2 + ((r : ℝ) - y0) ^ 2 = 0 at h0
          linarith
        have a2 : ((r : ℝ) - y0) ^ 2 = 0 := by
          have := sq_nonneg ((c : ℝ) - x0); have := sq_nonneg ((r : ℝ) - y0)
          change ((c : ℝ) - x0) ^ 2 + ((r : ℝ) - y0) ^ 2 = 0 at h0
          linarith
        constructor
        · have := pow_eq_zero_iff (two_ne_zero) |>.mp a1; linarith
        · have := pow_eq_zero_iff (two_ne_zero) |>.mp a2; linarith
      · exact absurd h hf2.ne'
    · rintro ⟨h1, h2⟩
      left
      have : d2 = 0 := by
        change ((c : ℝ) - x0) ^ 2 + ((r : ℝ) - y0) ^ 2 = 0
        rw [h1, h2]; ring
      rw [this, mul_zero]
  · have h12 : (1 / 2 : ℝ) = Real.exp (-Real.log 2) := by
      rw [Real.exp_neg, Real.exp_log (by norm_num)]; norm_num
    rw [hv, h12, Real.exp_eq_exp]
    rw [Real.sqrt_eq_iff_mul_self_eq hd (by positivity)]
    rw [div_eq_iff hf2.ne']
    constructor
    · intro h
      have : Real.log 2 * (4 * d2 - fwhm ^ 2) = 0 := by linarith
      rcases mul_eq_zero.mp this with h' | h'
      · linarith
      · linarith
    · intro h
      have : d2 = fwhm ^ 2 / 4 := by rw [h]; ring
      rw [this]; ring

/-- C55: without a centre the peak is at the middle of the square. -/
theorem C55_default (size : Nat) (fwhm : ℝ) :
    makeGaussian size fwhm none = makeGaussian size fwhm (some ((size / 2 : Nat), (size / 2 : Nat))) := rfl

/-- C55: frame t of `moveGaussian` is `makeGaussian` at the t-th centre. -/
theorem C55_frames (size : Nat) (fwhm : ℝ) (center : Nat → ℝ × ℝ) (timestep t : Nat) (ht : t < timestep) :
    moveGaussian size fwhm center timestep t = makeGaussian size fwhm (some (center t)) := by
  induction timestep with
  | zero => omega
  | succ n ih =>
    have e : moveGaussian size fwhm center (n + 1) =
        Function.update (moveGaussian size fwhm center n) n (makeGaussian size fwhm (some (center n))) := by
      unfold moveGaussian
      rw [List.range_succ, List.foldl_append]
      rfl
    rw [e]
    by_cases h : t = n
    · subst h; rw [Function.update_self]
    · rw [Function.update_of_ne h]; exact ih (by omega)

/-! ### C71 -/

/-- C71, positive part: from the second frame on the positions are checked on the axes with margin, and the eddies
of the frame have the distances of the check. Missing: the first frame, see `C71_refuted`. -/
theorem C71_partial (lx hx ly hy : ℝ) (xlen ylen m : Nat) (p q : Pos) :
    Real.sqrt ((placedAt lx hx xlen m p.1 - placedAt lx hx xlen m q.1) ^ 2 +
      (placedAt ly hy ylen m q.2 - placedAt ly hy ylen m p.2) ^ 2) =
    posDist (linspaceAt lx hx (xlen + 2 * m)) (linspaceAt ly hy (ylen + 2 * m)) p q := by
  unfold posDist placedAt linspaceAt
  congr 1
  push_cast
  ring

/-- C71: in the first frame the positions are checked on the axes without margin, but the eddies are placed on the
axes with margin: all distances along an axis shrink by the factor (len - 1) / (len + 2 margin - 1). -/
theorem C71_first_frame (lo hi : ℝ) (len m i j : Nat) (hlen : 2 ≤ len) :
    placedAt lo hi len m i - placedAt lo hi len m j =
      (linspaceAt lo hi len i - linspaceAt lo hi len j) * (((len : ℝ) - 1) / (len + 2 * m - 1)) := by
  unfold placedAt linspaceAt
  have h1 : ((len : ℝ) - 1) ≠ 0 := by
    have : (2 : ℝ) ≤ len := by exact_mod_cast hlen
    linarith
  have h2 : ((len : ℝ) + 2 * m - 1) ≠ 0 := by
    have : (2 : ℝ) ≤ len := by exact_mod_cast hlen
    have : (0 : ℝ) ≤ m := Nat.cast_nonneg m
    linarith
  push_cast
  field_simp
  ring

/-- C71 is false: on axes of 101 points from 0 to 100 with the default margin 50, two eddies of radius 1 that are 8
apart when checked are closer than 5 in the first frame. -/
theorem C71_refuted : ∃ p q : Pos, 5 * (1 : ℝ) ≤ posDist (linspaceAt 0 100 101) (linspaceAt 0 100 101) p q ∧
    Real.sqrt ((placedAt 0 100 101 50 p.1 - placedAt 0 100 101 50 q.1) ^ 2 +
      (placedAt 0 100 101 50 q.2 - placedAt 0 100 101 50 p.2) ^ 2) < 5 * 1 := by
  refine ⟨(8, 0), (0, 0), ?_, ?_⟩
  · unfold posDist linspaceAt
    apply Real.le_sqrt_of_sq_le
    norm_num
  · rw [Real.sqrt_lt' (by norm_num)]
    unfold placedAt linspaceAt
    norm_num

end Trackeddy
