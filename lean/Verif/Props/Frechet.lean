import Verif.Proofs.Frechet
import Mathlib.Data.Nat.Factorial.Basic
import Mathlib.Data.Rat.Defs
import Mathlib.Algebra.Order.Field.Rat
import Mathlib.Tactic.Linarith

/-!
C24-C27: `frdist` (trackeddy/geometry.py:307-414).

`limit` is the number of Python stack frames available to the recursion in `_c`.
-/
namespace Trackeddy.Frechet
open Spec

variable {K : Type*} [Field K] [LinearOrder K] [IsStrictOrderedRing K] {P : Type*}

/-! ### C24 -/

/-- **C24** `frdist` of two non-empty curves, one of them of at most 300 points, is their discrete
Fréchet distance: the minimum over all couplings of the longest link. -/
theorem C24_frdist_is_discrete_frechet (limit : Nat) (dist : P → P → K)
    (hsym : ∀ a b, dist a b = dist b a) (A B : List P) (hA : A ≠ []) (hB : B ≠ [])
    (h300 : A.length ≤ 300 ∨ B.length ≤ 300) (hlim : A.length + B.length - 2 < limit) :
    ∃ v, frdist limit dist A B = .ok v ∧ IsDiscreteFrechet dist A B v := by
  have hA' : 0 < A.length := List.length_pos_iff.2 hA
  have hB' : 0 < B.length := List.length_pos_iff.2 hB
  refine ⟨val (distAt dist A B) (A.length - 1) (B.length - 1), ?_, ?_⟩
  · rw [frdist_eq limit hsym, subsample_id _ _ _ h300]
    simp only [hA, hB, or_self, if_false]
    rw [if_pos (by omega)]
  · rw [isDiscreteFrechet_iff hA hB]
    exact isFrechet_val _ _ _

/-- **C24** for curves of any length: whatever number `frdist` returns is the discrete Fréchet
distance of the two subsampled curves, each consisting of every `s`-th point for one common stride
`s` (`s = 1` if a curve has at most 300 points). -/
theorem C24_frdist_general (limit : Nat) (dist : P → P → K)
    (hsym : ∀ a b, dist a b = dist b a) (A B : List P) (v : K)
    (h : frdist limit dist A B = .ok v) :
    IsDiscreteFrechet dist (subsample 0 A B).1 (subsample 0 A B).2 v := by
  rw [frdist_eq limit hsym] at h
  simp only at h
  split at h
  · cases h
  · rename_i h0
    rw [not_or] at h0
    rw [isDiscreteFrechet_iff h0.1 h0.2]
    split at h
    · injection h with h
      rw [← h]
      exact isFrechet_val _ _ _
    · cases h

/-- **C24** error branch: an empty curve is an `IndexError`, and nothing else is. -/
theorem C24_frdist_indexError_iff (limit : Nat) (dist : P → P → K)
    (hsym : ∀ a b, dist a b = dist b a) (A B : List P) :
    frdist limit dist A B = .error .indexError ↔ A = [] ∨ B = [] := by
  rw [frdist_eq limit hsym]
  simp only [subsample_nil_left, subsample_nil_right]
  split
  · simp_all
  · split <;> simp_all

/-- non-vacuity of C24 on a concrete pair of curves of rational points on a line -/
example : ∃ v : ℚ, frdist 1000 (fun a b : ℚ => |a - b|) [1, 2, 5] [1, 4] = .ok v ∧
    IsDiscreteFrechet (fun a b : ℚ => |a - b|) [1, 2, 5] [1, 4] v :=
  C24_frdist_is_discrete_frechet 1000 _ (fun a b => abs_sub_comm a b) _ _ (by simp) (by simp)
    (by simp) (by simp)

/-- a test (not a proof of the property): the value on these curves -/
example : frdist 1000 (fun a b : ℚ => |a - b|) [1, 2, 5] [1, 4] = .ok 1 := by
  rw [frdist_eq _ (fun a b => abs_sub_comm a b), subsample_id _ _ _ (by simp)]
  simp [val, distAt]
  norm_num

/-! ### C25 -/

/-- **C25** symmetry, for all inputs and including the exceptions. -/
theorem C25_frdist_symm (limit : Nat) (dist : P → P → K) (hsym : ∀ a b, dist a b = dist b a)
    (A B : List P) : frdist limit dist A B = frdist limit dist B A := by
  rw [frdist_eq limit hsym A B, frdist_eq limit hsym B A, subsample_swap 0 A B]
  simp only
  rw [val_distAt_swap hsym, Nat.add_comm]
  simp only [or_comm]

/-- **C25** `frdist` is non-negative. -/
theorem C25_frdist_nonneg (limit : Nat) (dist : P → P → K) (hsym : ∀ a b, dist a b = dist b a)
    (hnn : ∀ a b, 0 ≤ dist a b) (A B : List P) (v : K) (h : frdist limit dist A B = .ok v) :
    0 ≤ v := by
  obtain ⟨_, _, ⟨L, _, ⟨_, _, a, b, _, _, hv⟩, _⟩, _⟩ := C24_frdist_general limit dist hsym A B v h
  rw [hv]; exact hnn a b

/-- **C25** the distance of a curve to itself is zero. -/
theorem C25_frdist_self (limit : Nat) (dist : P → P → K) (hsym : ∀ a b, dist a b = dist b a)
    (hnn : ∀ a b, 0 ≤ dist a b) (h0 : ∀ a, dist a a = 0) (A : List P) (v : K)
    (h : frdist limit dist A A = .ok v) : v = 0 := by
  have hs : (subsample 0 A A).1 = (subsample 0 A A).2 := by
    have := subsample_swap 0 A A
    rw [Prod.ext_iff] at this
    exact this.1
  have h' := C24_frdist_general limit dist hsym A A v h
  have hne := h'.1
  rw [← hs] at h'
  rw [isDiscreteFrechet_iff hne hne] at h'
  apply le_antisymm
  · rw [← reach_of_isFrechet h']
    apply Reach.diagonal
    intro i
    unfold distAt
    cases (subsample 0 A A).1[i]? <;> simp [h0]
  · exact C25_frdist_nonneg limit dist hsym hnn A A v h

theorem subsample_head? (k : Nat) (p q : List P) : (subsample k p q).1.head? = p.head? := by
  induction h : p.length using Nat.strongRecOn generalizing k p q with
  | ind n ih =>
    unfold subsample
    by_cases hc : 300 < p.length ∧ 300 < q.length
    · rw [if_pos hc, ih _ (h ▸ slice0_length_lt k p (by omega)) _ _ _ rfl, slice0_head?]
    · rw [if_neg hc]

/-- **C25** `frdist` is at least the distance between the first points, for all inputs. -/
theorem C25_frdist_ge_first (limit : Nat) (dist : P → P → K) (hsym : ∀ a b, dist a b = dist b a)
    (A B : List P) (a b : P) (ha : A.head? = some a) (hb : B.head? = some b) (v : K)
    (h : frdist limit dist A B = .ok v) : dist a b ≤ v := by
  have h' := C24_frdist_general limit dist hsym A B v h
  rw [isDiscreteFrechet_iff h'.1 h'.2.1] at h'
  have := ((reach_of_isFrechet h' v).2 (le_refl _)).first
  rwa [distAt_eq (a := a) (b := b)] at this
  · rw [← List.head?_eq_getElem?, subsample_head?, ha]
  · rw [← List.head?_eq_getElem?, ← hb, ← subsample_head? 0 B A, subsample_swap 0 A B]

/-- **C25** without subsampling `frdist` is at least the distance between the last points. -/
theorem C25_frdist_ge_last (limit : Nat) (dist : P → P → K) (hsym : ∀ a b, dist a b = dist b a)
    (A B : List P) (h300 : A.length ≤ 300 ∨ B.length ≤ 300) (a b : P)
    (ha : A.getLast? = some a) (hb : B.getLast? = some b) (v : K)
    (h : frdist limit dist A B = .ok v) : dist a b ≤ v := by
  have h' := C24_frdist_general limit dist hsym A B v h
  rw [subsample_id _ _ _ h300] at h'
  rw [isDiscreteFrechet_iff h'.1 h'.2.1] at h'
  have := ((reach_of_isFrechet h' v).2 (le_refl _)).link
  rwa [distAt_eq (a := a) (b := b)] at this
  · rw [← ha, List.getLast?_eq_getElem?]
  · rw [← hb, List.getLast?_eq_getElem?]

/-- **C25** triangle inequality without subsampling. -/
theorem C25_frdist_triangle (limit : Nat) (dist : P → P → K) (hsym : ∀ a b, dist a b = dist b a)
    (htri : ∀ a b c, dist a c ≤ dist a b + dist b c)
    (A B C : List P) (hAB : A.length ≤ 300 ∨ B.length ≤ 300) (hBC : B.length ≤ 300 ∨ C.length ≤ 300)
    (hAC : A.length ≤ 300 ∨ C.length ≤ 300) (u v w : K) (hu : frdist limit dist A B = .ok u)
    (hv : frdist limit dist B C = .ok v) (hw : frdist limit dist A C = .ok w) : w ≤ u + v := by
  have hu' := C24_frdist_general limit dist hsym A B u hu
  have hv' := C24_frdist_general limit dist hsym B C v hv
  have hw' := C24_frdist_general limit dist hsym A C w hw
  rw [subsample_id _ _ _ hAB] at hu'
  rw [subsample_id _ _ _ hBC] at hv'
  rw [subsample_id _ _ _ hAC] at hw'
  have hA := hu'.1
  have hB := hu'.2.1
  have hC := hv'.2.1
  rw [isDiscreteFrechet_iff hA hB] at hu'
  rw [isDiscreteFrechet_iff hB hC] at hv'
  rw [isDiscreteFrechet_iff hA hC] at hw'
  rw [← reach_of_isFrechet hw']
  have r1 := (reach_of_isFrechet hu' u).2 (le_refl _)
  have r2 := (reach_of_isFrechet hv' v).2 (le_refl _)
  -- extend the distances outside the curves so that the triangle inequality holds everywhere
  let a (i : Nat) : P := A.getD i (A.head hA)
  let b (i : Nat) : P := B.getD i (B.head hB)
  let c (i : Nat) : P := C.getD i (C.head hC)
  have hA' : 0 < A.length := List.length_pos_iff.2 hA
  have hB' : 0 < B.length := List.length_pos_iff.2 hB
  have hC' : 0 < C.length := List.length_pos_iff.2 hC
  have e1 : ∀ i j, i ≤ A.length - 1 → j ≤ B.length - 1 →
      distAt dist A B i j = dist (a i) (b j) := by
    intro i j hi hj
    apply distAt_eq <;> simp [a, b] <;> rw [List.getElem?_eq_getElem (by omega)] <;> simp
  have e2 : ∀ i j, i ≤ B.length - 1 → j ≤ C.length - 1 →
      distAt dist B C i j = dist (b i) (c j) := by
    intro i j hi hj
    apply distAt_eq <;> simp [b, c] <;> rw [List.getElem?_eq_getElem (by omega)] <;> simp
  have e3 : ∀ i j, i ≤ A.length - 1 → j ≤ C.length - 1 →
      dist (a i) (c j) = distAt dist A C i j := by
    intro i j hi hj
    symm
    apply distAt_eq <;> simp [a, c] <;> rw [List.getElem?_eq_getElem (by omega)] <;> simp
  have r1' := Reach.congr (e := fun i j => dist (a i) (b j)) e1 r1
  have r2' := Reach.congr (e := fun i j => dist (b i) (c j)) e2 r2
  have r3 := Reach.comp (d3 := fun i k => dist (a i) (c k)) (fun i j k => htri (a i) (b j) (c k))
    _ _ _ _ rfl r1' r2'
  exact Reach.congr (d := fun i k => dist (a i) (c k)) e3 r3

/-- non-vacuity of the hypotheses of the C25 laws -/
example : ∃ u v w : ℚ, frdist 1000 (fun a b : ℚ => |a - b|) [1, 2, 5] [1, 4] = .ok u ∧
    frdist 1000 (fun a b : ℚ => |a - b|) [1, 4] [0, 7] = .ok v ∧
    frdist 1000 (fun a b : ℚ => |a - b|) [1, 2, 5] [0, 7] = .ok w ∧ w ≤ u + v := by
  have hs : ∀ a b : ℚ, |a - b| = |b - a| := fun a b => abs_sub_comm a b
  obtain ⟨u, hu, _⟩ := C24_frdist_is_discrete_frechet 1000 (fun a b : ℚ => |a - b|) hs [1, 2, 5] [1, 4]
    (by simp) (by simp) (by simp) (by simp)
  obtain ⟨v, hv, _⟩ := C24_frdist_is_discrete_frechet 1000 (fun a b : ℚ => |a - b|) hs [1, 4] [0, 7]
    (by simp) (by simp) (by simp) (by simp)
  obtain ⟨w, hw, _⟩ := C24_frdist_is_discrete_frechet 1000 (fun a b : ℚ => |a - b|) hs [1, 2, 5] [0, 7]
    (by simp) (by simp) (by simp) (by simp)
  exact ⟨u, v, w, hu, hv, hw, C25_frdist_triangle 1000 _ hs (fun a b c => abs_sub_le a b c) _ _ _
    (by simp) (by simp) (by simp) u v w hu hv hw⟩

/-- **C25** boundary of the law: with subsampling the last points may be ignored, so two curves with
different last points can have distance zero.  (The guard "at most 300 points" of
`C25_frdist_ge_last` cannot be dropped.) -/
theorem C25_subsampling_ignores_last_point :
    ∃ A B : List ℚ, A.length = 302 ∧ B.length = 302 ∧ A.getLast? = some 0 ∧ B.getLast? = some 1 ∧
      frdist 1000 (fun a b : ℚ => |a - b|) A B = .ok 0 := by
  obtain ⟨n, hn⟩ : ∃ n, n = 301 := ⟨_, rfl⟩
  have hs : ∀ a b : ℚ, |a - b| = |b - a| := fun a b => abs_sub_comm a b
  set A : List ℚ := List.replicate (n + 1) 0 with hAdef
  set B : List ℚ := List.replicate n 0 ++ [1] with hBdef
  have hA : A.length = 302 := by rw [hAdef, List.length_replicate, hn]
  have hB : B.length = 302 := by rw [hBdef, List.length_append, List.length_replicate, hn]; rfl
  refine ⟨A, B, hA, hB, by simp [hAdef, List.getLast?_replicate], by simp [hBdef], ?_⟩
  have hsub : subsample 0 A B = (slice0 1 A, slice0 1 B) := by
    rw [subsample, if_pos (by omega), subsample, if_neg (by simp [slice0_length, hA, hB])]
  have key : slice0 1 A = slice0 1 B := by
    apply List.ext_getElem?
    intro i
    rw [slice0_getElem?, slice0_getElem?, hAdef, hBdef, List.getElem?_append]
    simp only [List.length_replicate, List.getElem?_replicate]
    by_cases h : i * (1 + 1) < n
    · rw [if_pos (by omega), if_pos h, if_pos h]
    · rw [if_neg (by omega), if_neg h, List.getElem?_eq_none (by simp; omega)]
  have hlen : (slice0 1 A).length = 151 := by simp [slice0_length, hA]
  have hok : frdist 1000 (fun a b : ℚ => |a - b|) A B =
      .ok (val (distAt (fun a b : ℚ => |a - b|) (slice0 1 A) (slice0 1 A)) 150 150) := by
    rw [frdist_eq _ hs, hsub, ← key]
    have hne : slice0 1 A ≠ [] := by
      intro h; rw [h] at hlen; simp at hlen
    simp only [hne, or_self, if_false, hlen]
    simp
  rw [hok]
  congr 1
  have h1 := C25_frdist_self 1000 (fun a b : ℚ => |a - b|) hs (fun a b => abs_nonneg _)
    (by simp) (slice0 1 A)
  apply h1
  rw [frdist_eq _ hs, subsample_id _ _ _ (by left; omega)]
  have hne : slice0 1 A ≠ [] := by
    intro h; rw [h] at hlen; simp at hlen
  simp only [hne, or_self, if_false, hlen]
  simp

/-! ### C26 -/

theorem subsample_rounds (k : Nat) (p q : List P) :
    ∃ r, EveryNth ((k + r + 1).factorial / (k + 1).factorial) p (subsample k p q).1 ∧
      EveryNth ((k + r + 1).factorial / (k + 1).factorial) q (subsample k p q).2 ∧
      ∀ r' < r, ∀ p' q', EveryNth ((k + r' + 1).factorial / (k + 1).factorial) p p' →
        EveryNth ((k + r' + 1).factorial / (k + 1).factorial) q q' →
        300 < p'.length ∧ 300 < q'.length := by
  induction h : p.length using Nat.strongRecOn generalizing k p q with
  | ind n ih =>
    unfold subsample
    by_cases hc : 300 < p.length ∧ 300 < q.length
    · rw [if_pos hc]
      obtain ⟨r, h1, h2, h3⟩ := ih _ (h ▸ slice0_length_lt k p (by omega)) (k + 1)
        (slice0 (k + 1) p) (slice0 (k + 1) q) rfl
      have hdiv : ∀ m, (k + (m + 1) + 1).factorial / (k + 1).factorial =
          (k + 1 + m + 1).factorial / (k + 1 + 1).factorial * (k + 1 + 1) := by
        intro m
        have hd : (k + 1 + 1).factorial ∣ (k + 1 + m + 1).factorial :=
          Nat.factorial_dvd_factorial (by omega)
        obtain ⟨c, hc⟩ := hd
        rw [show k + (m + 1) + 1 = k + 1 + m + 1 by omega, hc, Nat.mul_div_cancel_left _ (Nat.factorial_pos _),
          Nat.factorial_succ (k + 1), Nat.mul_comm (k + 1 + 1), Nat.mul_assoc,
          Nat.mul_div_cancel_left _ (Nat.factorial_pos _), Nat.mul_comm]
      have hcomp : ∀ (m : Nat) (l l' : List P),
          EveryNth ((k + 1 + m + 1).factorial / (k + 1 + 1).factorial) (slice0 (k + 1) l) l' →
          EveryNth ((k + (m + 1) + 1).factorial / (k + 1).factorial) l l' := by
        intro m l l' hl i
        rw [hl i, slice0_getElem?, hdiv, Nat.mul_assoc]
      refine ⟨r + 1, hcomp _ _ _ h1, hcomp _ _ _ h2, ?_⟩
      intro r' hr' p' q' hp hq
      cases r' with
      | zero =>
        rw [Nat.add_zero, Nat.div_self (Nat.factorial_pos _)] at hp hq
        have e1 : p' = p := List.ext_getElem? (fun i => by simpa using hp i)
        have e2 : q' = q := List.ext_getElem? (fun i => by simpa using hq i)
        rw [e1, e2]; exact hc
      | succ m =>
        apply h3 m (by omega) p' q'
        · intro i; rw [hp i, hdiv, slice0_getElem?, Nat.mul_assoc]
        · intro i; rw [hq i, hdiv, slice0_getElem?, Nat.mul_assoc]
    · rw [if_neg hc]
      refine ⟨0, ?_, ?_, by intro r' h; omega⟩
      · intro i; simp [Nat.div_self (Nat.factorial_pos _)]
      · intro i; simp [Nat.div_self (Nat.factorial_pos _)]

/-- **C26** The subsampling loop (total, hence terminating) keeps every `(r+1)!`-th point of both
curves, where `r` is the first number of rounds after which one of the curves has at most 300
points; neither curve is emptied and both keep their first point. -/
theorem C26_subsample_spec (p q : List P) :
    ∃ r, EveryNth (r + 1).factorial p (subsample 0 p q).1 ∧
      EveryNth (r + 1).factorial q (subsample 0 p q).2 ∧
      ((subsample 0 p q).1.length ≤ 300 ∨ (subsample 0 p q).2.length ≤ 300) ∧
      (∀ r' < r, ∀ p' q', EveryNth (r' + 1).factorial p p' → EveryNth (r' + 1).factorial q q' →
        300 < p'.length ∧ 300 < q'.length) := by
  obtain ⟨r, h1, h2, h3⟩ := subsample_rounds 0 p q
  simp only [Nat.zero_add, Nat.factorial_one, Nat.div_one] at h1 h2 h3
  exact ⟨r, h1, h2, subsample_bound 0 p q, h3⟩

/-- **C26** consequences: first points kept, non-empty curves stay non-empty, nothing happens when
one curve has at most 300 points. -/
theorem C26_subsample_keeps (p q : List P) :
    (subsample 0 p q).1.head? = p.head? ∧ (subsample 0 p q).2.head? = q.head? ∧
    ((subsample 0 p q).1 = [] ↔ p = []) ∧ ((subsample 0 p q).2 = [] ↔ q = []) ∧
    (p.length ≤ 300 ∨ q.length ≤ 300 → subsample 0 p q = (p, q)) := by
  refine ⟨subsample_head? 0 p q, ?_, subsample_nil_left 0 p q, subsample_nil_right 0 p q,
    subsample_id 0 p q⟩
  rw [← subsample_head? 0 q p, subsample_swap 0 p q]

/-- non-vacuity: with 1000 and 700 points two rounds (stride 6) are needed -/
example : (subsample 0 (List.range 1000) (List.range 700)).1.length = 167 := by
  rw [subsample, if_pos (by simp), subsample, if_pos (by simp [slice0_length]), subsample,
    if_neg (by simp [slice0_length])]
  simp [slice0_length]

/-! ### C27 -/

/-- **C27** exact condition for `RecursionError`: the two (subsampled) curves together have at least
`limit + 2` points. -/
theorem C27_recursionError_iff (limit : Nat) (dist : P → P → K)
    (hsym : ∀ a b, dist a b = dist b a) (A B : List P) (hA : A ≠ []) (hB : B ≠ []) :
    frdist limit dist A B = .error .recursionError ↔
      limit + 2 ≤ (subsample 0 A B).1.length + (subsample 0 A B).2.length := by
  rw [frdist_eq limit hsym]
  have h1 := (subsample_nil_left 0 A B).not.2 hA
  have h2 := (subsample_nil_right 0 A B).not.2 hB
  have h1' := List.length_pos_iff.2 h1
  have h2' := List.length_pos_iff.2 h2
  simp only [h1, h2, or_self, if_false]
  split
  · simp; omega
  · simp; omega

/-- **C24** for curves of any length, without reference to the loop: `frdist` compares every `s`-th point of both curves, for one
stride `s`, which is 1 if a curve has at most 300 points. It raises `RecursionError` if these points are too many for the
recursion limit and returns their discrete Fréchet distance otherwise. -/
theorem C24_any_length (limit : Nat) (dist : P → P → K) (hsym : ∀ a b, dist a b = dist b a) (A B : List P)
    (hA : A ≠ []) (hB : B ≠ []) : ∃ (s : Nat) (A' B' : List P), 0 < s ∧ EveryNth s A A' ∧ EveryNth s B B' ∧
      (A'.length ≤ 300 ∨ B'.length ≤ 300) ∧ (A.length ≤ 300 ∨ B.length ≤ 300 → s = 1 ∧ A' = A ∧ B' = B) ∧
      (limit + 2 ≤ A'.length + B'.length → frdist limit dist A B = .error .recursionError) ∧
      (A'.length + B'.length < limit + 2 → ∃ v, frdist limit dist A B = .ok v ∧ IsDiscreteFrechet dist A' B' v) := by
  obtain ⟨r, h1, h2, h3, h4⟩ := C26_subsample_spec A B
  refine ⟨(r + 1).factorial, _, _, Nat.factorial_pos _, h1, h2, h3, fun h => ?_, fun h => ?_, fun h => ?_⟩
  · have hk := (C26_subsample_keeps A B).2.2.2.2 h
    refine ⟨?_, by rw [hk], by rw [hk]⟩
    cases r with
    | zero => rfl
    | succ r =>
      have := h4 0 (Nat.succ_pos _) A B (by intro i; simp) (by intro i; simp)
      omega
  · exact (C27_recursionError_iff limit dist hsym A B hA hB).2 h
  · cases he : frdist limit dist A B with
    | ok v => exact ⟨v, rfl, C24_frdist_general limit dist hsym A B v he⟩
    | error e =>
      cases e with
      | recursionError => exact absurd ((C27_recursionError_iff limit dist hsym A B hA hB).1 he) (by omega)
      | indexError => exact absurd ((C24_frdist_indexError_iff limit dist hsym A B).1 he) (by simp [hA, hB])

/-- two curves of 650 points -/
example : ∃ s : Nat, ∃ A' B' : List ℚ, 0 < s ∧ EveryNth s (List.replicate 650 (0 : ℚ)) A' ∧ EveryNth s (List.replicate 650 1) B' :=
  (C24_any_length 1000 (fun a b : ℚ => |a - b|) (fun a b => abs_sub_comm a b) (List.replicate 650 0) (List.replicate 650 1)
    (List.cons_ne_nil _ _) (List.cons_ne_nil _ _)).imp fun _ h => h.imp fun _ h => h.imp fun _ h => ⟨h.1, h.2.1, h.2.2.1⟩

/-- **C27** partial: if the longer of the two curves has at most 300 points the recursion fits into
599 frames.  Missing from the full property: the guard on the length of the longer curve (the code
only bounds the shorter one); `C27_refuted` shows that the guard cannot be dropped. -/
theorem C27_no_recursionError_partial (limit : Nat) (hlim : 599 ≤ limit) (dist : P → P → K)
    (hsym : ∀ a b, dist a b = dist b a) (A B : List P) (hA : A ≠ []) (hB : B ≠ [])
    (h1 : A.length ≤ 300) (h2 : B.length ≤ 300) :
    frdist limit dist A B ≠ .error .recursionError := by
  rw [Ne, C27_recursionError_iff limit dist hsym A B hA hB, subsample_id _ _ _ (Or.inl h1)]
  simp only
  omega

/-- **C27** refuted: for every recursion limit there are two curves (one of a single point) for
which `frdist` raises `RecursionError`, in spite of the subsampling. -/
theorem C27_refuted (limit : Nat) :
    ∃ A B : List ℚ, A ≠ [] ∧ B ≠ [] ∧
      frdist limit (fun a b : ℚ => |a - b|) A B = .error .recursionError := by
  refine ⟨List.replicate (limit + 1) 0, [0], by simp, by simp, ?_⟩
  rw [C27_recursionError_iff limit _ (fun a b => abs_sub_comm a b) _ _ (by simp) (by simp),
    subsample_id _ _ _ (by simp)]
  simp

/-- non-vacuity of the partial theorem -/
example : frdist 1000 (fun a b : ℚ => |a - b|) [1, 2, 5] [1, 4] ≠ .error .recursionError :=
  C27_no_recursionError_partial 1000 (by norm_num) _ (fun a b => abs_sub_comm a b) _ _ (by simp)
    (by simp) (by simp) (by simp)

end Trackeddy.Frechet
