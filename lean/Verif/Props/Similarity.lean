import Verif.Model.Similarity
import Verif.Props.Frechet
import Mathlib.Tactic.Ring
import Mathlib.Tactic.NormNum

/-! C28: `compute_similarity` (trackeddy/geometry.py:281-304). -/
namespace Trackeddy
open Frechet

namespace Frechet
variable {K : Type*} [Field K] [LinearOrder K] [IsStrictOrderedRing K] {P Q : Type*}

theorem slice0_map (f : P → Q) (c : Nat) (l : List P) : slice0 c (l.map f) = (slice0 c l).map f := by
  fun_induction slice0 c l with
  | case1 => simp [slice0]
  | case2 x xs ih => rw [List.map_cons, slice0, ← List.map_drop, ih, List.map_cons]

theorem subsample_map (f : P → Q) (k : Nat) (p q : List P) :
    subsample k (p.map f) (q.map f) = ((subsample k p q).1.map f, (subsample k p q).2.map f) := by
  induction h : p.length using Nat.strongRecOn generalizing k p q with
  | ind n ih =>
    rw [subsample, subsample.eq_1 k p q]
    simp only [List.length_map]
    by_cases hc : 300 < p.length ∧ 300 < q.length
    · simp only [if_pos hc]
      rw [slice0_map, slice0_map, ih _ (h ▸ slice0_length_lt k p (by omega)) _ _ _ rfl]
    · simp only [if_neg hc]

theorem val_scale {s : K} (hs : 0 ≤ s) {d e : Nat → Nat → K} (h : ∀ i j, e i j = s * d i j) :
    ∀ i j, val e i j = s * val d i j := by
  intro i j
  induction hn : i + j using Nat.strongRecOn generalizing i j with
  | ind n ih =>
    match i, j with
    | 0, 0 => simp [val, h]
    | i + 1, 0 => simp only [val, h, ih (i + 0) (by omega) i 0 rfl, mul_max_of_nonneg _ _ hs]
    | 0, j + 1 => simp only [val, h, ih (0 + j) (by omega) 0 j rfl, mul_max_of_nonneg _ _ hs]
    | i + 1, j + 1 =>
      simp only [val, h, ih (i + (j + 1)) (by omega) i (j + 1) rfl, ih (i + j) (by omega) i j rfl,
        ih (i + 1 + j) (by omega) (i + 1) j rfl, mul_max_of_nonneg _ _ hs, mul_min_of_nonneg _ _ hs]

/-- `frdist` under a map that multiplies all distances by a constant -/
theorem frdist_scale (limit : Nat) {s : K} (hs : 0 ≤ s) {dist : P → P → K} {dist' : Q → Q → K}
    (hsym : ∀ a b, dist a b = dist b a) (hsym' : ∀ a b, dist' a b = dist' b a) {f : P → Q}
    (hf : ∀ a b, dist' (f a) (f b) = s * dist a b) (A B : List P) :
    frdist limit dist' (A.map f) (B.map f) = (frdist limit dist A B).map (s * ·) := by
  rw [frdist_eq limit hsym' _ _, frdist_eq limit hsym A B, subsample_map]
  simp only [List.map_eq_nil_iff, List.length_map]
  split
  · rfl
  · split
    · simp only [Except.map]
      congr 1
      apply val_scale hs
      intro i j
      unfold distAt
      simp only [List.getElem?_map]
      cases (subsample 0 A B).1[i]? <;> cases (subsample 0 A B).2[j]? <;> simp [hf]
    · rfl

end Frechet

theorem eucl_symm (p q : ℝ × ℝ) : eucl p q = eucl q p := by
  unfold eucl; congr 1; ring

theorem eucl_nonneg (p q : ℝ × ℝ) : 0 ≤ eucl p q := Real.sqrt_nonneg _

theorem eucl_self (p : ℝ × ℝ) : eucl p p = 0 := by simp [eucl]

theorem arcLoop_eq (acc : ℝ) (c : List (ℝ × ℝ)) : arcLoop acc c = acc + arcLoop 0 c := by
  induction c generalizing acc with
  | nil => simp [arcLoop]
  | cons p l ih =>
    cases l with
    | nil => simp [arcLoop]
    | cons q l =>
      unfold arcLoop
      rw [ih, ih (0 + eucl p q)]; ring

/-- `arc_length` is the sum of the lengths of the segments. -/
theorem C28_arcLength_sum (c : List (ℝ × ℝ)) :
    arcLength c = ((c.zip c.tail).map fun p => eucl p.1 p.2).sum := by
  unfold arcLength
  induction c with
  | nil => simp [arcLoop]
  | cons p l ih =>
    cases l with
    | nil => simp [arcLoop]
    | cons q l =>
      unfold arcLoop
      rw [arcLoop_eq, ih]
      simp

theorem arcLength_scale {s : ℝ} {f : ℝ × ℝ → ℝ × ℝ} (hf : ∀ a b, eucl (f a) (f b) = s * eucl a b)
    (c : List (ℝ × ℝ)) : arcLength (c.map f) = s * arcLength c := by
  unfold arcLength
  induction c with
  | nil => simp [arcLoop]
  | cons p l ih =>
    cases l with
    | nil => simp [arcLoop]
    | cons q l =>
      simp only [List.map_cons] at ih ⊢
      unfold arcLoop
      rw [arcLoop_eq, arcLoop_eq (0 + eucl p q), ih, hf]; ring

theorem roundEven_le {x : ℝ} {n : ℤ} (h : x ≤ n) : roundEven x ≤ n := by
  unfold roundEven
  have h1 : ⌊x⌋ ≤ n := by
    have := Int.floor_le x
    exact_mod_cast this.trans h
  have key : ¬ Int.fract x < 1 / 2 → ⌊x⌋ + 1 ≤ n := by
    intro hf
    by_contra hc
    have he : ⌊x⌋ = n := by omega
    have := Int.floor_add_fract x
    rw [he] at this
    linarith
  split_ifs with h2 h3 h4
  · exact h1
  · exact key h2
  · exact h1
  · exact key h2

theorem le_roundEven {x : ℝ} {n : ℤ} (h : (n : ℝ) ≤ x) : n ≤ roundEven x := by
  have h1 : n ≤ ⌊x⌋ := Int.le_floor.2 h
  unfold roundEven
  split_ifs <;> omega

theorem roundEven_close (x : ℝ) : |(roundEven x : ℝ) - x| ≤ 1 / 2 := by
  have h0 := Int.floor_add_fract x
  have h1 := Int.fract_nonneg x
  have h2 := Int.fract_lt_one x
  unfold roundEven
  rw [abs_le]
  split_ifs <;> push_cast <;> constructor <;> linarith

theorem round4_range {x : ℝ} (h0 : 0 ≤ x) (h1 : x ≤ 1) : 0 ≤ round4 x ∧ round4 x ≤ 1 := by
  unfold round4
  have h2 := le_roundEven (x := x * 10000) (n := 0) (by push_cast; linarith)
  have h3 := roundEven_le (x := x * 10000) (n := 10000) (by push_cast; linarith)
  have h2' : (0 : ℝ) ≤ roundEven (x * 10000) := by exact_mod_cast h2
  have h3' : (roundEven (x * 10000) : ℝ) ≤ 10000 := by exact_mod_cast h3
  constructor
  · positivity
  · rw [div_le_one (by norm_num)]; exact h3'

theorem round4_one : round4 1 = 1 := by
  unfold round4 
  have h2 := le_roundEven (x := 1 * 10000) (n := 10000) (by push_cast; linarith)
  have h3 := roundEven_le (x := 1 * 10000) (n := 10000) (by push_cast; linarith)
  rw [le_antisymm h3 h2]; norm_num

theorem arcLength_nonneg (c : List (ℝ × ℝ)) : 0 ≤ arcLength c := by
  rw [C28_arcLength_sum]
  apply List.sum_nonneg
  intro x hx
  obtain ⟨p, _, rfl⟩ := List.mem_map.1 hx
  exact eucl_nonneg _ _

/-- the denominator -/
theorem geo_pos {A B : List (ℝ × ℝ)} (hA : 0 < arcLength A) (hB : 0 < arcLength B) :
    0 < Real.sqrt (arcLength A * arcLength B) / Real.sqrt 2 :=
  div_pos (Real.sqrt_pos.2 (mul_pos hA hB)) (Real.sqrt_pos.2 (by norm_num))

theorem similarity_eq {limit : Nat} {A B : List (ℝ × ℝ)} (hA : 0 < arcLength A)
    (hB : 0 < arcLength B) : similarity limit A B = (frdist limit eucl A B).map fun d =>
      some (round4 (max (1 - d / (Real.sqrt (arcLength A * arcLength B) / Real.sqrt 2)) 0)) := by
  unfold similarity
  cases frdist limit eucl A B with
  | error e => rfl
  | ok d => simp [bind, Except.bind, Except.map, (geo_pos hA hB).ne', pure, Except.pure]

/-- **C28** the score of two curves of positive length lies in [0,1] and is the value of the formula
`1 - F/(√(L₁L₂)/√2)` (cut off at 0) up to 0.00005. -/
theorem C28_similarity_range (limit : Nat) {A B : List (ℝ × ℝ)} (hA : 0 < arcLength A)
    (hB : 0 < arcLength B) {r : Option ℝ} (h : similarity limit A B = .ok r) :
    ∃ s d, r = some s ∧ frdist limit eucl A B = .ok d ∧ 0 ≤ s ∧ s ≤ 1 ∧
      |s - max (1 - d * Real.sqrt 2 / Real.sqrt (arcLength A * arcLength B)) 0| ≤ 1 / 20000 := by
  rw [similarity_eq hA hB] at h
  cases hd : frdist limit eucl A B with
  | error e => rw [hd] at h; cases h
  | ok d =>
    rw [hd] at h
    injection h with h
    subst h
    have hnn := C25_frdist_nonneg limit eucl eucl_symm eucl_nonneg A B d hd
    have hg := geo_pos hA hB
    have hx1 : max (1 - d / (Real.sqrt (arcLength A * arcLength B) / Real.sqrt 2)) 0 ≤ 1 := by
      apply max_le _ zero_le_one
      have := div_nonneg hnn hg.le
      linarith
    obtain ⟨h1, h2⟩ := round4_range (le_max_right _ _) hx1
    refine ⟨_, d, rfl, rfl, h1, h2, ?_⟩
    rw [← div_div_eq_mul_div]
    generalize max (1 - d / (Real.sqrt (arcLength A * arcLength B) / Real.sqrt 2)) 0 = x
    unfold round4
    have := roundEven_close (x * 10000)
    rw [abs_le] at this ⊢
    constructor
    · rw [neg_le_sub_iff_le_add, ← sub_le_iff_le_add, le_div_iff₀ (by norm_num)]; linarith [this.1]
    · rw [sub_le_iff_le_add, div_le_iff₀ (by norm_num)]; linarith [this.2]

/-- **C28** symmetry, including exceptions and degenerate curves. -/
theorem C28_similarity_symm (limit : Nat) (A B : List (ℝ × ℝ)) :
    similarity limit A B = similarity limit B A := by
  unfold similarity
  rw [C25_frdist_symm limit eucl eucl_symm A B, mul_comm]

/-- **C28** a curve of positive length has score 1 with itself. -/
theorem C28_similarity_self (limit : Nat) {A : List (ℝ × ℝ)} (hA : 0 < arcLength A) {r : Option ℝ}
    (h : similarity limit A A = .ok r) : r = some 1 := by
  rw [similarity_eq hA hA] at h
  cases hd : frdist limit eucl A A with
  | error e => rw [hd] at h; cases h
  | ok d =>
    rw [hd] at h
    injection h with h
    subst h
    rw [C25_frdist_self limit eucl eucl_symm eucl_nonneg eucl_self A d hd]
    simp [round4_one]

/-- **C28** translating both curves by the same vector and scaling both by the same positive factor
leaves the score unchanged (including exceptions and degenerate curves). -/
theorem C28_similarity_invariant (limit : Nat) (A B : List (ℝ × ℝ)) {s : ℝ} (hs : 0 < s) (v : ℝ × ℝ) :
    similarity limit (A.map fun p => (s * p.1 + v.1, s * p.2 + v.2))
      (B.map fun p => (s * p.1 + v.1, s * p.2 + v.2)) = similarity limit A B := by
  have hf : ∀ a b : ℝ × ℝ, eucl (s * a.1 + v.1, s * a.2 + v.2) (s * b.1 + v.1, s * b.2 + v.2) =
      s * eucl a b := by
    intro a b
    unfold eucl
    rw [← Real.sqrt_sq hs.le, ← Real.sqrt_mul (sq_nonneg s), Real.sqrt_sq hs.le]
    congr 1; ring
  unfold similarity
  rw [arcLength_scale (s := s) hf, arcLength_scale (s := s) hf,
    frdist_scale limit hs.le eucl_symm eucl_symm hf]
  have hg : Real.sqrt (s * arcLength A * (s * arcLength B)) =
      s * Real.sqrt (arcLength A * arcLength B) := by
    rw [← Real.sqrt_sq hs.le, ← Real.sqrt_mul (sq_nonneg s), Real.sqrt_sq hs.le]
    congr 1; ring
  rw [hg]
  cases frdist limit eucl A B with
  | error e => rfl
  | ok d =>
    simp only [Except.map, bind, Except.bind]
    simp only [mul_div_assoc, mul_eq_zero, or_iff_right hs.ne']
    rw [← mul_div_assoc, mul_div_mul_left _ _ hs.ne']

/-- non-vacuity: a curve of positive length -/
example : 0 < arcLength [(0, 0), (3, 4), (0, 0)] := by
  rw [C28_arcLength_sum]
  have : eucl (0, 0) (3, 4) = 5 := by
    unfold eucl; rw [show ((0 : ℝ) - 3) ^ 2 + (0 - 4) ^ 2 = 5 ^ 2 by norm_num]; exact Real.sqrt_sq (by norm_num)
  simp [eucl_symm (3, 4) (0, 0), this]

end Trackeddy
