import Verif.Model.Frechet
import Verif.Spec.Frechet
import Mathlib.Data.List.Chain

set_option linter.unusedSectionVars false

namespace Trackeddy.Frechet
open Spec

/-- `v` is the length of the longest link of `L`. -/
def LongestLink {K : Type*} [LE K] (d : Nat → Nat → K) (L : List (Nat × Nat)) (v : K) : Prop :=
  IsGreatest {w | ∃ l ∈ L, w = d l.1 l.2} v

/-- index version of the discrete Fréchet distance -/
def IsFrechet {K : Type*} [LE K] (d : Nat → Nat → K) (m n : Nat) (v : K) : Prop :=
  IsLeast {w | ∃ L, IsCoupling m n L ∧ LongestLink d L w} v

section
variable {K : Type*} [Field K] [LinearOrder K]

/-- Pure recurrence computed by `_c`. -/
def val (d : Nat → Nat → K) : Nat → Nat → K
  | 0, 0 => d 0 0
  | i + 1, 0 => max (val d i 0) (d (i + 1) 0)
  | 0, j + 1 => max (val d 0 j) (d 0 (j + 1))
  | i + 1, j + 1 =>
    max (min (min (val d i (j + 1)) (val d i j)) (val d (i + 1) j)) (d (i + 1) (j + 1))

/-- Memo invariant: filled cells hold the recurrence value. -/
def Inv (d : Nat → Nat → K) (ca : Memo K) : Prop := ∀ a b, -1 < ca a b → ca a b = val d a b

theorem Inv.set {d : Nat → Nat → K} {ca : Memo K} (h : Inv d ca) (i j : Nat) :
    Inv d (ca.set i j (val d i j)) := by
  intro a b hab
  unfold Memo.set at *
  split
  · rename_i he; rw [he.1, he.2]
  · rename_i he; rw [if_neg he] at hab; exact h a b hab

theorem cRec_ok (d : Nat → Nat → K) (fuel : Nat) : ∀ (i j : Nat) (ca : Memo K), Inv d ca →
    i + j < fuel → ∃ ca', cRec d fuel i j ca = some (val d i j, ca') ∧ Inv d ca' := by
  induction fuel with
  | zero => intro i j ca _ h; omega
  | succ fuel ih =>
    intro i j ca hI hlt
    unfold cRec
    split
    · rename_i hpos
      exact ⟨ca, by rw [hI i j hpos], hI⟩
    · match i, j with
      | 0, 0 => exact ⟨ca.set 0 0 (val d 0 0), by simp [val], hI.set 0 0⟩
      | i + 1, 0 =>
        obtain ⟨c1, e1, h1⟩ := ih i 0 ca hI (by omega)
        simp only [e1, Option.bind_eq_bind, Option.bind_some]
        exact ⟨c1.set (i + 1) 0 (val d (i + 1) 0), by simp [val], h1.set (i + 1) 0⟩
      | 0, j + 1 =>
        obtain ⟨c1, e1, h1⟩ := ih 0 j ca hI (by omega)
        simp only [e1, Option.bind_eq_bind, Option.bind_some]
        exact ⟨c1.set 0 (j + 1) (val d 0 (j + 1)), by simp [val], h1.set 0 (j + 1)⟩
      | i + 1, j + 1 =>
        obtain ⟨c1, e1, h1⟩ := ih i (j + 1) ca hI (by omega)
        obtain ⟨c2, e2, h2⟩ := ih i j c1 h1 (by omega)
        obtain ⟨c3, e3, h3⟩ := ih (i + 1) j c2 h2 (by omega)
        simp only [e1, e2, e3, Option.bind_eq_bind, Option.bind_some]
        exact ⟨c3.set (i + 1) (j + 1) (val d (i + 1) (j + 1)), by simp [val], h3.set (i + 1) (j + 1)⟩

theorem cRec_none (d : Nat → Nat → K) (ca : Memo K) (hca : ∀ a b, ¬ (-1 < ca a b)) (fuel : Nat) :
    ∀ (i j : Nat), fuel ≤ i + j → cRec d fuel i j ca = none := by
  induction fuel with
  | zero => intro i j _; rfl
  | succ fuel ih =>
    intro i j hle
    unfold cRec
    rw [if_neg (hca i j)]
    match i, j with
    | 0, 0 => omega
    | i + 1, 0 => simp [ih i 0 (by omega)]
    | 0, j + 1 => simp [ih 0 j (by omega)]
    | i + 1, j + 1 => simp [ih i (j + 1) (by omega)]

end

section
variable {K : Type*} [LinearOrder K]

/-- `(i,j)` can be reached from `(0,0)` by steps with all links of length at most `v`. -/
inductive Reach (d : Nat → Nat → K) (v : K) : Nat → Nat → Prop
  | base : d 0 0 ≤ v → Reach d v 0 0
  | right {i j} : Reach d v i j → d (i + 1) j ≤ v → Reach d v (i + 1) j
  | up {i j} : Reach d v i j → d i (j + 1) ≤ v → Reach d v i (j + 1)
  | diag {i j} : Reach d v i j → d (i + 1) (j + 1) ≤ v → Reach d v (i + 1) (j + 1)

theorem Reach.link {d : Nat → Nat → K} {v : K} {i j : Nat} (h : Reach d v i j) : d i j ≤ v := by
  cases h <;> assumption

theorem coupling_snoc {d : Nat → Nat → K} {v : K} {i j i' j' : Nat} {L : List (Nat × Nat)}
    (hL : IsCoupling i j L) (hb : ∀ l ∈ L, d l.1 l.2 ≤ v) (hs : Step (i, j) (i', j'))
    (hd : d i' j' ≤ v) : ∃ L, IsCoupling i' j' L ∧ ∀ l ∈ L, d l.1 l.2 ≤ v := by
  obtain ⟨hh, hl, hc⟩ := hL
  refine ⟨L ++ [(i', j')], ⟨?_, by simp, ?_⟩, ?_⟩
  · cases L with
    | nil => simp at hh
    | cons a t => simpa using hh
  · rw [List.isChain_append]
    refine ⟨hc, by simp, ?_⟩
    intro x hx y hy
    rw [hl] at hx
    simp at hx hy
    subst hx; subst hy
    exact hs
  · intro l hl'
    rcases List.mem_append.mp hl' with h | h
    · exact hb l h
    · simp at h; subst h; exact hd

theorem Reach.coupling {d : Nat → Nat → K} {v : K} {i j : Nat} (h : Reach d v i j) :
    ∃ L, IsCoupling i j L ∧ ∀ l ∈ L, d l.1 l.2 ≤ v := by
  induction h with
  | base h0 => exact ⟨[(0, 0)], ⟨rfl, rfl, by simp⟩, by simpa using h0⟩
  | right _ hd ih => obtain ⟨L, h, hb⟩ := ih; exact coupling_snoc h hb (by simp [Step]) hd
  | up _ hd ih => obtain ⟨L, h, hb⟩ := ih; exact coupling_snoc h hb (by simp [Step]) hd
  | diag _ hd ih => obtain ⟨L, h, hb⟩ := ih; exact coupling_snoc h hb (by simp [Step]) hd

theorem reach_of_coupling_aux {d : Nat → Nat → K} {v : K} (L : List (Nat × Nat)) :
    ∀ a b, (a, b) ∈ L.head? → L.IsChain Step → Reach d v a b → (∀ l ∈ L, d l.1 l.2 ≤ v) →
      ∀ m n, L.getLast? = some (m, n) → Reach d v m n := by
  induction L with
  | nil => intro a b h; simp at h
  | cons x t ih =>
    intro a b hh hc hr hb m n hl
    simp at hh; subst hh
    cases t with
    | nil => simp at hl; obtain ⟨rfl, rfl⟩ := hl; exact hr
    | cons y s =>
      rw [List.isChain_cons_cons] at hc
      have hy := hb y (by simp)
      refine ih y.1 y.2 (by simp) hc.2 ?_ (fun l hl => hb l (by simp [hl])) m n (by
        simpa [List.getLast?_cons_cons] using hl)
      rcases hc.1 with h | h | h <;> rw [h] at hy ⊢
      · exact .right hr hy
      · exact .up hr hy
      · exact .diag hr hy

theorem reach_iff_coupling {d : Nat → Nat → K} {v : K} {m n : Nat} :
    Reach d v m n ↔ ∃ L, IsCoupling m n L ∧ ∀ l ∈ L, d l.1 l.2 ≤ v := by
  refine ⟨Reach.coupling, ?_⟩
  rintro ⟨L, ⟨hh, hl, hc⟩, hb⟩
  refine reach_of_coupling_aux L 0 0 (by rw [hh]; simp) hc (.base ?_) hb m n hl
  exact hb (0, 0) (List.mem_of_mem_head? (by rw [hh]; simp))

theorem exists_longest (d : Nat → Nat → K) (L : List (Nat × Nat)) (hL : L ≠ []) :
    ∃ w, LongestLink d L w := by
  induction L with
  | nil => exact absurd rfl hL
  | cons x t ih =>
    by_cases ht : t = []
    · subst ht
      refine ⟨d x.1 x.2, ⟨x, by simp, rfl⟩, ?_⟩
      rintro w ⟨l, hl, rfl⟩
      simp at hl; subst hl; exact le_refl _
    · obtain ⟨w, ⟨l, hl, hw⟩, hub⟩ := ih ht
      rcases le_total w (d x.1 x.2) with h | h
      · refine ⟨d x.1 x.2, ⟨x, by simp, rfl⟩, ?_⟩
        rintro u ⟨k, hk, rfl⟩
        rcases List.mem_cons.mp hk with rfl | hk
        · exact le_refl _
        · exact le_trans (hub ⟨k, hk, rfl⟩) h
      · refine ⟨w, ⟨l, by simp [hl], hw⟩, ?_⟩
        rintro u ⟨k, hk, rfl⟩
        rcases List.mem_cons.mp hk with rfl | hk
        · exact h
        · exact hub ⟨k, hk, rfl⟩

/-- `IsFrechet` in terms of reachability. -/
theorem isFrechet_of_reach {d : Nat → Nat → K} {m n : Nat} {v : K}
    (h : ∀ w, Reach d w m n ↔ v ≤ w) : IsFrechet d m n v := by
  have hv : Reach d v m n := (h v).2 (le_refl _)
  have hlow : v ∈ lowerBounds {w | ∃ L, IsCoupling m n L ∧ LongestLink d L w} := by
    rintro w ⟨L, hc, hl⟩
    exact (h w).1 (reach_iff_coupling.2 ⟨L, hc, fun l hl' => hl.2 ⟨l, hl', rfl⟩⟩)
  refine ⟨?_, hlow⟩
  obtain ⟨L, hc, hb⟩ := hv.coupling
  have hne : L ≠ [] := by
    intro h0; subst h0; simp [IsCoupling] at hc
  obtain ⟨w, hw⟩ := exists_longest d L hne
  have h1 : v ≤ w := hlow ⟨L, hc, hw⟩
  have h2 : w ≤ v := by
    obtain ⟨l, hl, rfl⟩ := hw.1
    exact hb l hl
  have : v = w := le_antisymm h1 h2
  subst this
  exact ⟨L, hc, hw⟩

theorem reach_of_isFrechet {d : Nat → Nat → K} {m n : Nat} {v : K} (h : IsFrechet d m n v) (w : K) :
    Reach d w m n ↔ v ≤ w := by
  constructor
  · intro hr
    obtain ⟨L, hc, hb⟩ := hr.coupling
    have hne : L ≠ [] := by
      intro h0; subst h0; simp [IsCoupling] at hc
    obtain ⟨u, hu⟩ := exists_longest d L hne
    have h1 := h.2 ⟨L, hc, hu⟩
    obtain ⟨l, hl, rfl⟩ := hu.1
    exact le_trans h1 (hb l hl)
  · intro hvw
    obtain ⟨L, hc, hl⟩ := h.1
    exact reach_iff_coupling.2 ⟨L, hc, fun l hl' => le_trans (hl.2 ⟨l, hl', rfl⟩) hvw⟩

theorem isFrechet_unique {d : Nat → Nat → K} {m n : Nat} {v w : K} (h : IsFrechet d m n v)
    (h' : IsFrechet d m n w) : v = w := h.unique h'

theorem Reach.swap {d : Nat → Nat → K} {v : K} {i j : Nat} (h : Reach d v i j) :
    Reach (fun a b => d b a) v j i := by
  induction h with
  | base h => exact .base h
  | right _ hd ih => exact .up ih hd
  | up _ hd ih => exact .right ih hd
  | diag _ hd ih => exact .diag ih hd

theorem Reach.congr {d e : Nat → Nat → K} {v : K} {m n : Nat}
    (hde : ∀ a b, a ≤ m → b ≤ n → d a b = e a b) (h : Reach d v m n) : Reach e v m n := by
  induction h with
  | base h => exact .base (by rw [← hde 0 0 (by omega) (by omega)]; exact h)
  | right _ hd ih =>
    exact .right (ih fun a b ha hb => hde a b (by omega) hb)
      (by rw [← hde _ _ (by omega) (by omega)]; exact hd)
  | up _ hd ih =>
    exact .up (ih fun a b ha hb => hde a b ha (by omega))
      (by rw [← hde _ _ (by omega) (by omega)]; exact hd)
  | diag _ hd ih =>
    exact .diag (ih fun a b ha hb => hde a b (by omega) (by omega))
      (by rw [← hde _ _ (by omega) (by omega)]; exact hd)

theorem Reach.diagonal {d : Nat → Nat → K} {v : K} (h : ∀ i, d i i ≤ v) (n : Nat) :
    Reach d v n n := by
  induction n with
  | zero => exact .base (h 0)
  | succ n ih => exact .diag ih (h _)

theorem Reach.first {d : Nat → Nat → K} {v : K} {i j : Nat} (h : Reach d v i j) : d 0 0 ≤ v := by
  induction h <;> assumption

end

section
variable {K : Type*} [Field K] [LinearOrder K]

theorem reach_val (d : Nat → Nat → K) : ∀ (i j : Nat) (w : K), Reach d w i j ↔ val d i j ≤ w := by
  intro i j
  induction h : i + j using Nat.strongRecOn generalizing i j with
  | ind s ih =>
    intro w
    match i, j with
    | 0, 0 =>
      simp only [val]
      exact ⟨fun h => h.link, .base⟩
    | i + 1, 0 =>
      simp only [val, max_le_iff]
      rw [← ih (i + 0) (by omega) i 0 rfl w]
      constructor
      · intro h
        cases h with
        | right h hd => exact ⟨h, hd⟩
      · rintro ⟨h1, h2⟩; exact .right h1 h2
    | 0, j + 1 =>
      simp only [val, max_le_iff]
      rw [← ih (0 + j) (by omega) 0 j rfl w]
      constructor
      · intro h
        cases h with
        | up h hd => exact ⟨h, hd⟩
      · rintro ⟨h1, h2⟩; exact .up h1 h2
    | i + 1, j + 1 =>
      simp only [val, max_le_iff, min_le_iff]
      rw [← ih (i + (j + 1)) (by omega) i (j + 1) rfl w, ← ih (i + j) (by omega) i j rfl w,
        ← ih (i + 1 + j) (by omega) (i + 1) j rfl w]
      constructor
      · intro h
        cases h with
        | right h hd => exact ⟨.inl (.inl h), hd⟩
        | up h hd => exact ⟨.inr h, hd⟩
        | diag h hd => exact ⟨.inl (.inr h), hd⟩
      · rintro ⟨(h | h) | h, hd⟩
        · exact .right h hd
        · exact .diag h hd
        · exact .up h hd

theorem isFrechet_val (d : Nat → Nat → K) (i j : Nat) : IsFrechet d i j (val d i j) :=
  isFrechet_of_reach (reach_val d i j)

/-- composition of couplings, for the triangle inequality -/
theorem Reach.comp [IsStrictOrderedRing K] {d1 d2 d3 : Nat → Nat → K} {v1 v2 : K}
    (htri : ∀ i j k, d3 i k ≤ d1 i j + d2 j k) :
    ∀ s i j k, s = i + j + k → Reach d1 v1 i j → Reach d2 v2 j k → Reach d3 (v1 + v2) i k := by
  intro s
  induction s using Nat.strongRecOn with
  | ind s ih =>
    intro i j k hs h1 h2
    have hl : d3 i k ≤ v1 + v2 := le_trans (htri i j k) (add_le_add h1.link h2.link)
    cases h1 with
    | base h =>
      cases h2 with
      | base _ => exact .base hl
      | up h2' _ => exact .up (ih _ (by omega) 0 0 _ rfl (.base h) h2') hl
    | right h1' _ => exact .right (ih _ (by omega) _ j k rfl h1' h2) hl
    | up h1' hd1 =>
      cases h2 with
      | up h2' hd2 => exact .up (ih _ (by omega) _ _ _ rfl (.up h1' hd1) h2') hl
      | right h2' _ => exact ih _ (by omega) _ _ _ rfl h1' h2'
      | diag h2' _ => exact .up (ih _ (by omega) _ _ _ rfl h1' h2') hl
    | diag h1' hd1 =>
      cases h2 with
      | up h2' hd2 => exact .up (ih _ (by omega) _ _ _ rfl (.diag h1' hd1) h2') hl
      | right h2' _ => exact .right (ih _ (by omega) _ _ _ rfl h1' h2') hl
      | diag h2' _ => exact .diag (ih _ (by omega) _ _ _ rfl h1' h2') hl

end

/-! subsampling -/
section
variable {P : Type*}

theorem slice0_eq_nil {c : Nat} {l : List P} : slice0 c l = [] ↔ l = [] := by
  cases l <;> simp [slice0]

theorem slice0_head? (c : Nat) (l : List P) : (slice0 c l).head? = l.head? := by
  cases l <;> simp [slice0]

theorem slice0_getElem? (c : Nat) (l : List P) (i : Nat) :
    (slice0 c l)[i]? = l[i * (c + 1)]? := by
  fun_induction slice0 c l generalizing i with
  | case1 => simp
  | case2 x xs ih =>
    cases i with
    | zero => simp
    | succ i =>
      rw [List.getElem?_cons_succ, ih]
      rw [List.getElem?_drop]
      have : (i + 1) * (c + 1) = (c + i * (c + 1)) + 1 := by rw [Nat.add_mul]; omega
      rw [this, List.getElem?_cons_succ]

theorem slice0_length (c : Nat) (l : List P) : (slice0 c l).length = (l.length + c) / (c + 1) := by
  fun_induction slice0 c l with
  | case1 => simp [Nat.div_eq_of_lt]
  | case2 x xs ih =>
    simp only [List.length_cons, ih, List.length_drop]
    rcases Nat.lt_or_ge xs.length c with h | h
    · rw [show xs.length - c = 0 by omega, show (0 + c) / (c + 1) = 0 from Nat.div_eq_of_lt (by omega)]
      have : xs.length + 1 + c = xs.length + (c + 1) := by omega
      rw [this, Nat.add_div_right _ (by omega), Nat.div_eq_of_lt (by omega)]
    · rw [show xs.length - c + c = xs.length by omega]
      have : xs.length + 1 + c = xs.length + (c + 1) := by omega
      rw [this, Nat.add_div_right _ (by omega)]

theorem subsample_swap (k : Nat) (p q : List P) :
    subsample k q p = ((subsample k p q).2, (subsample k p q).1) := by
  induction h : p.length using Nat.strongRecOn generalizing k p q with
  | ind n ih =>
    unfold subsample
    by_cases hc : 300 < p.length ∧ 300 < q.length
    · rw [if_pos hc, if_pos hc.symm]
      exact ih _ (h ▸ slice0_length_lt k p (by omega)) _ _ _ rfl
    · rw [if_neg hc, if_neg (fun h => hc h.symm)]

theorem subsample_nil_left (k : Nat) (p q : List P) : (subsample k p q).1 = [] ↔ p = [] := by
  induction h : p.length using Nat.strongRecOn generalizing k p q with
  | ind n ih =>
    unfold subsample
    by_cases hc : 300 < p.length ∧ 300 < q.length
    · rw [if_pos hc, ih _ (h ▸ slice0_length_lt k p (by omega)) _ _ _ rfl, slice0_eq_nil]
    · rw [if_neg hc]

theorem subsample_nil_right (k : Nat) (p q : List P) : (subsample k p q).2 = [] ↔ q = [] := by
  have := subsample_nil_left k q p
  rwa [subsample_swap] at this

theorem subsample_id (k : Nat) (p q : List P) (h : p.length ≤ 300 ∨ q.length ≤ 300) :
    subsample k p q = (p, q) := by
  unfold subsample
  rw [if_neg (by omega)]

theorem subsample_bound (k : Nat) (p q : List P) :
    (subsample k p q).1.length ≤ 300 ∨ (subsample k p q).2.length ≤ 300 := by
  induction h : p.length using Nat.strongRecOn generalizing k p q with
  | ind n ih =>
    unfold subsample
    by_cases hc : 300 < p.length ∧ 300 < q.length
    · rw [if_pos hc]
      exact ih _ (h ▸ slice0_length_lt k p (by omega)) _ _ _ rfl
    · rw [if_neg hc]; simp only; omega

end

section
variable {K : Type*} [Field K] [LinearOrder K] {P : Type*}

/-- `frdist` is the recurrence on the (possibly subsampled) curves. -/
theorem frdist_eq_val [IsStrictOrderedRing K] (limit : Nat) (dist : P → P → K) (A B : List P) :
    frdist limit dist A B =
      (let s := subsample 0 (if A.length ≥ B.length then A else B)
          (if A.length ≥ B.length then B else A)
       if s.1 = [] ∨ s.2 = [] then .error .indexError
       else if (s.1.length - 1) + (s.2.length - 1) < limit then
         .ok (val (distAt dist s.1 s.2) (s.1.length - 1) (s.2.length - 1))
       else .error .recursionError) := by
  unfold frdist
  simp only [List.length_eq_zero_iff]
  generalize subsample 0 (if A.length ≥ B.length then A else B)
    (if A.length ≥ B.length then B else A) = s
  by_cases h0 : s.1 = [] ∨ s.2 = []
  · rw [if_pos h0, if_pos h0]
  · rw [if_neg h0, if_neg h0]
    by_cases h2 : (s.1.length - 1) + (s.2.length - 1) < limit
    · obtain ⟨ca, e, _⟩ := cRec_ok (distAt dist s.1 s.2) limit _ _ (fun _ _ => (-1 : K))
        (fun a b h => absurd h (lt_irrefl _)) h2
      rw [e, if_pos h2]
    · rw [cRec_none _ _ (fun a b => lt_irrefl _) limit _ _ (by omega), if_neg h2]


theorem coupling_in_range {m n : Nat} (L : List (Nat × Nat)) (hl : L.getLast? = some (m, n))
    (hc : L.IsChain Step) : ∀ l ∈ L, l.1 ≤ m ∧ l.2 ≤ n := by
  induction L with
  | nil => simp
  | cons x t ih =>
    cases t with
    | nil =>
      simp at hl; subst hl; simp
    | cons y s =>
      rw [List.isChain_cons_cons] at hc
      have := ih (by simpa [List.getLast?_cons_cons] using hl) hc.2
      intro l hl'
      rcases List.mem_cons.mp hl' with rfl | h
      · have h2 := this y (by simp)
        rcases hc.1 with h | h | h <;> rw [h] at h2 <;> simp at h2 <;> omega
      · exact this l h

theorem distAt_eq {dist : P → P → K} {A B : List P} {i j : Nat} {a b : P} (ha : A[i]? = some a)
    (hb : B[j]? = some b) : distAt dist A B i j = dist a b := by
  simp [distAt, ha, hb]

theorem link_iff {dist : P → P → K} {A B : List P} (hA : A ≠ []) (hB : B ≠ [])
    {L : List (Nat × Nat)} (hL : IsCoupling (A.length - 1) (B.length - 1) L) (u : K) :
    LinkLength dist A B L u ↔ ∃ l ∈ L, u = distAt dist A B l.1 l.2 := by
  have hr := coupling_in_range L hL.2.1 hL.2.2
  have hA' : 0 < A.length := List.length_pos_iff.2 hA
  have hB' : 0 < B.length := List.length_pos_iff.2 hB
  constructor
  · rintro ⟨l, hl, a, b, ha, hb, rfl⟩
    exact ⟨l, hl, (distAt_eq ha hb).symm⟩
  · rintro ⟨l, hl, rfl⟩
    have := hr l hl
    refine ⟨l, hl, A[l.1]'(by omega), B[l.2]'(by omega), by simp, by simp, ?_⟩
    exact distAt_eq (by simp) (by simp)

theorem isDiscreteFrechet_iff {dist : P → P → K} {A B : List P} (hA : A ≠ []) (hB : B ≠ []) (v : K) :
    IsDiscreteFrechet dist A B v ↔ IsFrechet (distAt dist A B) (A.length - 1) (B.length - 1) v := by
  unfold IsDiscreteFrechet IsFrechet CouplingCost LongestLink
  simp only [ne_eq, hA, not_false_eq_true, hB, true_and]
  have : {w | ∃ L, IsCoupling (A.length - 1) (B.length - 1) L ∧
        IsGreatest {u | LinkLength dist A B L u} w} =
      {w | ∃ L, IsCoupling (A.length - 1) (B.length - 1) L ∧
        IsGreatest {w | ∃ l ∈ L, w = distAt dist A B l.1 l.2} w} := by
    ext w
    constructor
    · rintro ⟨L, hL, h⟩
      refine ⟨L, hL, ?_⟩
      have : {u | LinkLength dist A B L u} = {w | ∃ l ∈ L, w = distAt dist A B l.1 l.2} := by
        ext u; exact link_iff hA hB hL u
      rwa [this] at h
    · rintro ⟨L, hL, h⟩
      refine ⟨L, hL, ?_⟩
      have : {u | LinkLength dist A B L u} = {w | ∃ l ∈ L, w = distAt dist A B l.1 l.2} := by
        ext u; exact link_iff hA hB hL u
      rwa [this]
  rw [this]

theorem distAt_swap {dist : P → P → K} (hs : ∀ a b, dist a b = dist b a) (A B : List P) (i j : Nat) :
    distAt dist A B i j = distAt dist B A j i := by
  unfold distAt
  cases A[i]? <;> cases B[j]? <;> simp [hs]

theorem val_swap (d : Nat → Nat → K) (i j : Nat) : val (fun a b => d b a) j i = val d i j := by
  apply le_antisymm
  · rw [← reach_val]
    exact Reach.swap ((reach_val d i j _).2 (le_refl _))
  · rw [← reach_val]
    exact Reach.swap ((reach_val (fun a b => d b a) j i _).2 (le_refl _))

theorem val_distAt_swap {dist : P → P → K} (hs : ∀ a b, dist a b = dist b a) (A B : List P) (i j : Nat) :
    val (distAt dist A B) i j = val (distAt dist B A) j i := by
  have : distAt dist A B = fun a b => distAt dist B A b a := by
    funext a b; exact distAt_swap hs A B a b
  rw [this, val_swap]

/-- `frdist` without the swap of the arguments, for symmetric distances. -/
theorem frdist_eq [IsStrictOrderedRing K] (limit : Nat) {dist : P → P → K}
    (hs : ∀ a b, dist a b = dist b a) (A B : List P) :
    frdist limit dist A B =
      (let s := subsample 0 A B
       if s.1 = [] ∨ s.2 = [] then .error .indexError
       else if (s.1.length - 1) + (s.2.length - 1) < limit then
         .ok (val (distAt dist s.1 s.2) (s.1.length - 1) (s.2.length - 1))
       else .error .recursionError) := by
  rw [frdist_eq_val]
  by_cases h : A.length ≥ B.length
  · simp only [h, if_true]
  · simp only [h, if_false]
    rw [subsample_swap]
    simp only
    rw [val_distAt_swap hs, Nat.add_comm]
    simp only [or_comm]

end

end Trackeddy.Frechet
