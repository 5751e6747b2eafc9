import Verif.Model.Filter
import Mathlib.Algebra.Order.Field.Rat
import Mathlib.Algebra.Order.Ring.Rat
import Mathlib.Algebra.BigOperators.Ring.Finset
import Mathlib.Algebra.BigOperators.Field
import Mathlib.Algebra.Order.BigOperators.Group.Finset
import Mathlib.Tactic.Ring
import Mathlib.Tactic.FieldSimp
import Mathlib.Tactic.Linarith
import Mathlib.Algebra.BigOperators.GroupWithZero.Finset

/-!
C47 (missing data), C48 (line mean filters), C49 (convolution filter).
-/
namespace Trackeddy

section
variable {K : Type} [Field K] [LinearOrder K] [IsStrictOrderedRing K] {ny nx : Nat}

/-! ### C47 -/

/-- C47 is false: with the space filter the option `nan_treatment` has no effect at all. -/
theorem C47_refuted (s : SpaceFilter) (v : Fld K ny nx) :
    filterData true s .space v = filterData false s .space v := rfl

/-- C47 is false: the time filter gives no field, and neither does the combination of both filters. -/
theorem C47_refuted_time (b : Bool) (s : SpaceFilter) (v : Fld K ny nx) :
    filterData b s .time v = .ok none ∧ ∀ w, filterData b s .both v ≠ .ok (some w) := by
  refine ⟨rfl, fun w => ?_⟩
  unfold filterData
  cases spaceFilter s (treatNan b v) <;> simp [bind, Except.bind, pure, Except.pure]

/-- C47 is false: a misspelt filter is not rejected. -/
theorem C47_refuted_unknown (b : Bool) (s : SpaceFilter) (v : Fld K ny nx) :
    ∃ w, filterData b s .other v = .ok (some w) := ⟨_, rfl⟩

/-- C47, positive part: without a filter the treated field has no missing value and the others are
unchanged; without treatment the field is unchanged. -/
theorem C47_partial (s : SpaceFilter) (v : Fld K ny nx) :
    (∃ w, filterData true s .other v = .ok (some w) ∧
      ∀ r c, w r c ≠ none ∧ (v r c = none → w r c = some 0) ∧ ∀ x, v r c = some x → w r c = some x) ∧
    filterData false s .other v = .ok (some v) := by
  refine ⟨⟨_, rfl, fun r c => ⟨?_, ?_, ?_⟩⟩, rfl⟩
  · simp [treatNan]
  · intro h; simp [treatNan, h]
  · intro x h; simp [treatNan, h]

/-! ### C48 -/

/-- sum and number of the valid values of a line -/
def lineSum {n : Nat} (l : Fin n → Option K) : K := ∑ i, match l i with | none => 0 | some x => x

theorem lineSum_eq {n : Nat} (l : Fin n → Option K) : lineSum l = ∑ i, val (l i) := by
  unfold lineSum
  apply Finset.sum_congr rfl
  intro i _
  cases l i <;> rfl

theorem sum_sub_map {n : Nat} (l : Fin n → Option K) (a : K) :
    ∑ i, val ((l i).map (· - a)) = ∑ i, val (l i) - a * ∑ i, one (l i) := by
  rw [Finset.mul_sum, ← Finset.sum_sub_distrib]
  apply Finset.sum_congr rfl
  intro i _
  cases l i <;> simp [val, one]

theorem one_map {n : Nat} (l : Fin n → Option K) (a : K) : ∑ i, one ((l i).map (· - a)) = ∑ i, one (l i) := by
  apply Finset.sum_congr rfl
  intro i _
  cases l i <;> simp [one]

theorem one_nonneg' (o : Option K) : 0 ≤ one o := by cases o <;> simp [one]

theorem count_pos {n : Nat} (l : Fin n → Option K) (i : Fin n) (h : l i ≠ none) : 0 < ∑ i, one (l i) := by
  apply Finset.sum_pos' (fun j _ => one_nonneg' (l j))
  refine ⟨i, Finset.mem_univ i, ?_⟩
  cases hi : l i with
  | none => exact absurd hi h
  | some x => simp [one]

theorem none_of_count {n : Nat} (l : Fin n → Option K) (h : ∑ i, one (l i) = 0) (i : Fin n) : l i = none := by
  by_contra hne
  exact absurd h (count_pos l i hne).ne'

theorem line_mean_zero {n : Nat} (l : Fin n → Option K) : lineSum (fun i => (l i).map (· - lineMean l)) = 0 := by
  rw [lineSum_eq, sum_sub_map]
  by_cases h : ∑ i, one (l i) = 0
  · have : ∀ i, l i = none := none_of_count l h
    rw [h]
    simp [this, val]
  · unfold lineMean
    field_simp
    simp

theorem lineMean_sub {n : Nat} (l : Fin n → Option K) (a : K) (i : Fin n) (h : l i ≠ none) :
    lineMean (fun i => (l i).map (· - a)) = lineMean l - a := by
  unfold lineMean
  rw [sum_sub_map, one_map, sub_div]
  have := (count_pos l i h).ne'
  field_simp

theorem line_idem {n : Nat} (l : Fin n → Option K) (i : Fin n) :
    ((l i).map (· - lineMean l)).map (· - lineMean fun j => (l j).map (· - lineMean l)) =
      (l i).map (· - lineMean l) := by
  cases hi : l i with
  | none => rfl
  | some x =>
    rw [lineMean_sub l (lineMean l) i (by simp [hi])]
    simp

theorem line_shift {n : Nat} (l : Fin n → Option K) (a : K) (i : Fin n) :
    ((l i).map (· - a)).map (· - lineMean fun j => (l j).map (· - a)) = (l i).map (· - lineMean l) := by
  cases hi : l i with
  | none => rfl
  | some x =>
    rw [lineMean_sub l a i (by simp [hi])]
    simp

/-- C48: after the meridional filter the valid values of every latitude have sum, hence mean, zero, and after
the zonal filter those of every longitude; missing values stay where they are. -/
theorem C48_mean_zero (v : Fld K ny nx) :
    (∀ r, lineSum (fun c => meridional v r c) = 0) ∧ (∀ c, lineSum (fun r => zonal v r c) = 0) ∧
    ∀ r c, (meridional v r c = none ↔ v r c = none) ∧ (zonal v r c = none ↔ v r c = none) := by
  refine ⟨fun r => line_mean_zero (v r), fun c => line_mean_zero (fun r => v r c), fun r c => ?_⟩
  simp [meridional, zonal]

/-- C48: applying the filters again changes nothing. -/
theorem C48_idempotent (v : Fld K ny nx) : meridional (meridional v) = meridional v ∧ zonal (zonal v) = zonal v := by
  constructor
  · funext r c; exact line_idem (v r) c
  · funext r c; exact line_idem (fun r => v r c) r

/-- C48: adding a constant to every line along which the mean is taken does not change the result. -/
theorem C48_shift (v : Fld K ny nx) (f : Fin ny → K) (g : Fin nx → K) :
    meridional (fun r c => (v r c).map (· + f r)) = meridional v ∧
    zonal (fun r c => (v r c).map (· + g c)) = zonal v := by
  constructor
  · funext r c
    have := line_shift (v r) (- f r) c
    simpa [meridional, sub_neg_eq_add] using this
  · funext r c
    have := line_shift (fun r => v r c) (- g c) r
    simpa [zonal, sub_neg_eq_add] using this

/-- C48: differences along the line are preserved: only a constant per line is removed. -/
theorem C48_differences (v : Fld K ny nx) :
    (∀ r, ∃ a, ∀ c, meridional v r c = (v r c).map (· - a)) ∧ ∀ c, ∃ a, ∀ r, zonal v r c = (v r c).map (· - a) :=
  ⟨fun r => ⟨_, fun _ => rfl⟩, fun c => ⟨_, fun _ => rfl⟩⟩

/-! ### C49 -/

/-- C49: an even kernel size is treated as the next odd one. -/
theorem C49_even (k : Nat) (hk : k % 2 = 0) (v : Fld K ny nx) : uniformFilter k v = uniformFilter (k + 1) v := by
  unfold uniformFilter kernelSize
  rw [if_pos hk, if_neg (by omega)]

/-- combination of two fields -/
def combine (a b : K) (v w : Fld K ny nx) : Fld K ny nx := fun r c =>
  match v r c, w r c with
  | some x, some y => some (a * x + b * y)
  | _, _ => none

theorem padded_combine (a b : K) (v w : Fld K ny nx) (hs : ∀ r c, v r c = none ↔ w r c = none) (i j : Int) :
    val (padded (combine a b v w) i j) = a * val (padded v i j) + b * val (padded w i j) ∧
    one (padded (combine a b v w) i j) = one (padded v i j) ∧ one (padded w i j) = one (padded v i j) := by
  unfold padded
  split
  · rename_i h
    have hs' := hs ⟨i.toNat, by omega⟩ ⟨j.toNat, by omega⟩
    unfold combine
    cases h1 : v ⟨i.toNat, by omega⟩ ⟨j.toNat, by omega⟩ with
    | none => rw [hs'.mp h1]; simp [val, one]
    | some x =>
      cases h2 : w ⟨i.toNat, by omega⟩ ⟨j.toNat, by omega⟩ with
      | none => rw [hs'.mpr h2] at h1; simp at h1
      | some y => simp [val, one]
  · simp [val, one]

/-- C49: the filter is linear on fields with the same missing points. -/
theorem C49_linear (k : Nat) (a b : K) (v w : Fld K ny nx) (hs : ∀ r c, v r c = none ↔ w r c = none) :
    uniformFilter k (combine a b v w) = combine a b (uniformFilter k v) (uniformFilter k w) := by
  funext r c
  have hm : boxMean (kernelSize k) (combine a b v w) r c =
      a * boxMean (kernelSize k) v r c + b * boxMean (kernelSize k) w r c := by
    have e1 : ∑ p ∈ box (kernelSize k), val (padded (combine a b v w) (r + p.1) (c + p.2)) =
        a * ∑ p ∈ box (kernelSize k), val (padded v (r + p.1) (c + p.2)) +
        b * ∑ p ∈ box (kernelSize k), val (padded w (r + p.1) (c + p.2)) := by
      rw [Finset.mul_sum, Finset.mul_sum, ← Finset.sum_add_distrib]
      exact Finset.sum_congr rfl fun p _ => (padded_combine a b v w hs (r + p.1) (c + p.2)).1
    have e2 : ∑ p ∈ box (kernelSize k), one (padded (combine a b v w) (r + p.1) (c + p.2)) =
        ∑ p ∈ box (kernelSize k), one (padded v (r + p.1) (c + p.2)) :=
      Finset.sum_congr rfl fun p _ => (padded_combine a b v w hs (r + p.1) (c + p.2)).2.1
    have e3 : ∑ p ∈ box (kernelSize k), one (padded w (r + p.1) (c + p.2)) =
        ∑ p ∈ box (kernelSize k), one (padded v (r + p.1) (c + p.2)) :=
      Finset.sum_congr rfl fun p _ => (padded_combine a b v w hs (r + p.1) (c + p.2)).2.2
    unfold boxMean
    rw [e1, e2, e3]
    ring
  have hl : uniformFilter k (combine a b v w) r c = (combine a b v w r c).map
      (· - (a * boxMean (kernelSize k) v r c + b * boxMean (kernelSize k) w r c)) := by
    rw [← hm]; rfl
  rw [hl]
  unfold combine uniformFilter
  cases h1 : v r c with
  | none => simp
  | some x =>
    cases h2 : w r c with
    | none => simp
    | some y =>
      simp only [Option.map_some, Option.some.injEq]
      ring

/-- number of cells of the `n` x `n` box around a point that belong to the grid -/
def cellsInside (ny nx n r c : Nat) : Nat :=
  ((box n).filter fun p => 0 ≤ (r : Int) + p.1 ∧ (r : Int) + p.1 < ny ∧ 0 ≤ (c : Int) + p.2 ∧ (c : Int) + p.2 < nx).card

theorem box_card (n : Nat) (hn : n % 2 = 1) : (box n).card = n * n := by
  unfold box
  rw [Finset.card_product, Int.card_Icc]
  congr 1 <;> omega

theorem kernel_odd (k : Nat) : kernelSize k % 2 = 1 := by unfold kernelSize; split <;> omega

/-- C49: a constant field is mapped to its value times the part of the box that lies outside the grid. -/
theorem C49_constant_partial (k : Nat) (a : K) (r : Fin ny) (c : Fin nx) :
    uniformFilter k (fun _ _ => some a : Fld K ny nx) r c =
      some (a * (1 - (cellsInside ny nx (kernelSize k) r c : K) / ((kernelSize k : K) * kernelSize k))) := by
  unfold uniformFilter boxMean
  rw [Option.map_some]
  have h1 : ∀ p ∈ box (kernelSize k), one (padded (fun _ _ => some a : Fld K ny nx) (r + p.1) (c + p.2)) = 1 := by
    intro p _
    unfold padded
    split <;> rfl
  have h2 : ∀ p ∈ box (kernelSize k), val (padded (fun _ _ => some a : Fld K ny nx) (r + p.1) (c + p.2)) =
      if (0 ≤ (r : Int) + p.1 ∧ (r : Int) + p.1 < ny ∧ 0 ≤ (c : Int) + p.2 ∧ (c : Int) + p.2 < nx) then a else 0 := by
    intro p _
    unfold padded
    split <;> rfl
  rw [Finset.sum_congr rfl h1, Finset.sum_congr rfl h2, ← Finset.sum_filter, Finset.sum_const, Finset.sum_const,
    nsmul_eq_mul, nsmul_eq_mul, box_card _ (kernel_odd k)]
  unfold cellsInside
  push_cast
  congr 1
  ring

/-- the box around a point lies inside the grid -/
def BoxInside (ny nx n r c : Nat) : Prop := n / 2 ≤ r ∧ r + n / 2 < ny ∧ n / 2 ≤ c ∧ c + n / 2 < nx

theorem cellsInside_iff (ny nx n r c : Nat) (hn : n % 2 = 1) :
    cellsInside ny nx n r c = n * n ↔ BoxInside ny nx n r c := by
  rw [← box_card n hn]
  unfold cellsInside
  rw [Finset.card_filter_eq_iff]
  unfold BoxInside box
  constructor
  · intro h
    have a1 := h (-((n / 2 : Nat) : Int), -((n / 2 : Nat) : Int)) (by simp only [Finset.mem_product, Finset.mem_Icc]; omega)
    have a2 := h (((n / 2 : Nat) : Int), ((n / 2 : Nat) : Int)) (by simp only [Finset.mem_product, Finset.mem_Icc]; omega)
    simp only at a1 a2
    omega
  · intro h p hp
    rw [Finset.mem_product, Finset.mem_Icc, Finset.mem_Icc] at hp
    omega

/-- C49, where it holds: a non-zero constant field is mapped to zero exactly at the points whose box lies inside
the grid. -/
theorem C49_constant_iff (k : Nat) (a : K) (ha : a ≠ 0) (r : Fin ny) (c : Fin nx) :
    uniformFilter k (fun _ _ => some a : Fld K ny nx) r c = some 0 ↔ BoxInside ny nx (kernelSize k) r c := by
  rw [C49_constant_partial, ← cellsInside_iff _ _ _ _ _ (kernel_odd k)]
  have hpos : (0 : K) < kernelSize k := by
    have := kernel_odd k
    have : 0 < kernelSize k := by omega
    exact_mod_cast this
  have hne : ((kernelSize k : K) * kernelSize k) ≠ 0 := by positivity
  simp only [Option.some.injEq, mul_eq_zero, ha, false_or, sub_eq_zero]
  rw [eq_div_iff hne, one_mul]
  constructor
  · intro h; exact_mod_cast h.symm
  · intro h; exact_mod_cast h.symm

end

/-- C49 is false near the border: with the default kernel a constant field of ones on a 20 x 20 grid is not
mapped to zero at a corner. -/
theorem C49_refuted : ∃ x : ℚ, uniformFilter 10 (fun _ _ => some 1 : Fld ℚ 20 20) 0 0 = some x ∧ x ≠ 0 := by
  refine ⟨_, C49_constant_partial 10 1 0 0, fun h => ?_⟩
  have := (C49_constant_iff 10 (1 : ℚ) one_ne_zero (0 : Fin 20) (0 : Fin 20)).mp
    (by rw [C49_constant_partial 10 1 0 0, h])
  revert this
  unfold BoxInside kernelSize
  decide

/-- but it is mapped to zero in the middle -/
example : uniformFilter 10 (fun _ _ => some 1 : Fld ℚ 20 20) 10 10 = some 0 := by
  rw [C49_constant_iff 10 (1 : ℚ) one_ne_zero]
  unfold BoxInside kernelSize
  decide

/-- a field with a missing point under the meridional filter -/
example : (meridional (fun r c => if r = 0 ∧ c = 1 then none else some (2 * (c.val : ℚ)) : Fld ℚ 1 3)) 0 0 = some (-2) := by
  decide +kernel

end Trackeddy
