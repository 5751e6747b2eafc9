import Verif.Props.LevelsExample
import Verif.Props.Flip
import Verif.Proofs.Same

/-!
C121 with the Gaussian fit, from a map on: a further level takes away the eddy of an earlier one. The map is the one of
Props/LevelsExample.lean, two adjacent grid points with value 1 among zeros (trackeddy/trackeddy.py:226-395, utils.py:36-71).
-/
namespace Trackeddy
open Spec
open Cntr (Vertex SameShape arrGrid)

/-! ### the fitted Gaussian -/

/-- the same libraries, and an optimiser that answers a Gaussian around (-1/2, 0): half the amplitude at distance 1 in longitude, an eighth
in latitude -/
noncomputable def lgLibs : Libs :=
  { lvLibs with leastSquares := fun _ => .ok (-(1 / 2), 0, Real.sqrt (1 / (2 * Real.log 2)), Real.sqrt (1 / (6 * Real.log 2)), 0) }

theorem lgLibs_nearest : lgLibs.Nearest := lvLibs_nearest

theorem lgGaussian (x y : ℝ) :
    gaussian x y 1 (-(1 / 2)) 0 (Real.sqrt (1 / (2 * Real.log 2))) (Real.sqrt (1 / (6 * Real.log 2))) 0 =
      Real.exp (-(Real.log 2 * ((x + 1 / 2) ^ 2 + 3 * y ^ 2))) := by
  have h : 0 < Real.log 2 := Real.log_pos (by norm_num)
  unfold gaussian
  simp only [Real.cos_zero, Real.sin_zero, mul_zero, zero_div, sub_self, one_mul]
  rw [Real.sq_sqrt (by positivity), Real.sq_sqrt (by positivity)]
  congr 1
  field_simp
  ring

def lgqZ : Cntr.NdArr (Option ℚ) :=
  ⟨3, 4, fun r c => some (([[1/16, 1/8, 1/16, 1/128], [1/2, 1, 1/2, 1/16], [1/16, 1/8, 1/16, 1/128]].getD r []).getD c 0)⟩

theorem lgq_quarter : Cntr.extractContours lvqX lvqY lgqZ (3 / 4) 50 Cntr.exMem =
    .ok ([[some (-1 / 2, -2 / 7), some (0, 0), some (-1 / 2, 2 / 7), some (-1, 0), some (-1 / 2, -2 / 7)]].map .points, [.codes [1, 2, 2, 2, 2]]) := by
  decide +kernel

theorem lgq_eighths : Cntr.extractContours lvqX lvqY lgqZ (5 / 8) 50 Cntr.exMem =
    .ok ([[some (-1 / 2, -3 / 7), some (1 / 4, 0), some (-1 / 2, 3 / 7), some (-5 / 4, 0), some (-1 / 2, -3 / 7)]].map .points, [.codes [1, 2, 2, 2, 2]]) := by
  decide +kernel

/-- the contour of the Gaussian at the level 1 - s -/
noncomputable def lgPts (s : ℝ) : List (ℝ × ℝ) :=
  [(-(1 / 2), -(8 * s / 7)), (-(1 / 2) + 2 * s, 0), (-(1 / 2), 8 * s / 7), (-(1 / 2) - 2 * s, 0), (-(1 / 2), -(8 * s / 7))]

theorem exp_log_two (n : ℕ) : Real.exp (-(Real.log 2 * n)) = (1 / 2) ^ n := by
  rw [mul_comm, Real.exp_neg, Real.exp_nat_mul, Real.exp_log (by norm_num), one_div, inv_pow]

/-- the values of the Gaussian on the grid -/
theorem lgSame : SameArr (lgqZ.castO (Rat.castHom ℝ)) ⟨3, 4, fun r c => some (gaussian (lvField.X.get r c) (lvField.Y.get r c) 1 (-(1 / 2)) 0
    (Real.sqrt (1 / (2 * Real.log 2))) (Real.sqrt (1 / (6 * Real.log 2))) 0)⟩ := by
  refine ⟨rfl, rfl, fun r hr c hc => ?_⟩
  have hr : r < 3 := hr
  have hc : c < 4 := hc
  simp only [lgGaussian]
  have key : ∀ (x y : ℝ) (n : ℕ), (x + 1 / 2) ^ 2 + 3 * y ^ 2 = n → Real.exp (-(Real.log 2 * ((x + 1 / 2) ^ 2 + 3 * y ^ 2))) = (1 / 2) ^ n := by
    intro x y n h
    rw [h, exp_log_two]
  have h : ∃ n : ℕ, (lvField.X.get r c + 1 / 2) ^ 2 + 3 * lvField.Y.get r c ^ 2 = n ∧
      (lgqZ.castO (Rat.castHom ℝ)).get r c = some ((1 / 2) ^ n) := by
    unfold lvField lgqZ Cntr.NdArr.castO
    interval_cases r <;> interval_cases c <;> simp only [Option.map_some, List.getD_cons_zero, List.getD_cons_succ]
    · exact ⟨4, by norm_num, by norm_num⟩
    · exact ⟨3, by norm_num, by norm_num⟩
    · exact ⟨4, by norm_num, by norm_num⟩
    · exact ⟨7, by norm_num, by norm_num⟩
    · exact ⟨1, by norm_num, by norm_num⟩
    · exact ⟨0, by norm_num, by norm_num⟩
    · exact ⟨1, by norm_num, by norm_num⟩
    · exact ⟨4, by norm_num, by norm_num⟩
    · exact ⟨4, by norm_num, by norm_num⟩
    · exact ⟨3, by norm_num, by norm_num⟩
    · exact ⟨4, by norm_num, by norm_num⟩
    · exact ⟨7, by norm_num, by norm_num⟩
  obtain ⟨n, h1, h2⟩ := h
  rw [key _ _ n h1, h2]

theorem lgContours (L : Libs) {s : ℝ} (hs : s = 1 / 4 ∨ s = 3 / 8) {Z : Cntr.NdArr (Option ℝ)} (hZ : SameArr (lgqZ.castO (Rat.castHom ℝ)) Z) :
    contoursOf L lvField.X lvField.Y Z (1 - s) = .ok [(lgPts s).map some] := by
  obtain ⟨hX, hY, -⟩ := lvField_cast
  rw [contoursOf_same (SameArr.refl lvField.X) (SameArr.refl lvField.Y) hZ ⟨rfl, rfl, fun M hM => by cases hM⟩]
  have hd : 4 * ((lgqZ.castO (Rat.castHom ℝ)).cols * (lgqZ.castO (Rat.castHom ℝ)).rows) + 2 = 4 * (4 * 3) + 2 := rfl
  rcases hs with rfl | rfl
  · obtain ⟨cds, h⟩ := Cntr.extract_cast (Rat.castHom ℝ) Rat.cast_strictMono (X := lvqX) (Y := lvqY) (Z := lgqZ)
      (mem' := L.mem (lgqZ.castO (Rat.castHom ℝ)) (1 - 1 / 4)) (fuel' := 4 * (4 * 3) + 2)
      ⟨rfl, rfl, fun M hM => by cases hM⟩ (3 / 4) (by decide) (by decide) lgq_quarter
    have hl : Rat.castHom ℝ (3 / 4) = 1 - 1 / 4 := by norm_num
    rw [hX, hY, hl] at h
    unfold contoursOf
    rw [hd, h]
    simp only [vertsOf, lgPts, List.map_cons, List.map_nil, Option.map_some, List.filterMap_cons, List.filterMap_nil]
    norm_num
  · obtain ⟨cds, h⟩ := Cntr.extract_cast (Rat.castHom ℝ) Rat.cast_strictMono (X := lvqX) (Y := lvqY) (Z := lgqZ)
      (mem' := L.mem (lgqZ.castO (Rat.castHom ℝ)) (1 - 3 / 8)) (fuel' := 4 * (4 * 3) + 2)
      ⟨rfl, rfl, fun M hM => by cases hM⟩ (5 / 8) (by decide) (by decide) lgq_eighths
    have hl : Rat.castHom ℝ (5 / 8) = 1 - 3 / 8 := by norm_num
    rw [hX, hY, hl] at h
    unfold contoursOf
    rw [hd, h]
    simp only [vertsOf, lgPts, List.map_cons, List.map_nil, Option.map_some, List.filterMap_cons, List.filterMap_nil]
    norm_num

/-! ### the scores -/

theorem Frechet.Reach.visits {d : Nat → Nat → ℝ} {v : ℝ} {i j : Nat} (h : Frechet.Reach d v i j) : ∀ k ≤ i, ∃ m ≤ j, d k m ≤ v := by
  induction h with
  | base h => exact fun k hk => ⟨0, le_rfl, by rw [Nat.le_zero.1 hk]; exact h⟩
  | @right i j h1 h2 ih =>
    intro k hk
    rcases Nat.lt_or_ge k (i + 1) with hk' | hk'
    · exact ih k (by omega)
    · have : k = i + 1 := by omega
      exact ⟨j, le_rfl, this ▸ h2⟩
  | @up i j h1 h2 ih =>
    intro k hk
    obtain ⟨m, hm, h⟩ := ih k hk
    exact ⟨m, by omega, h⟩
  | @diag i j h1 h2 ih =>
    intro k hk
    rcases Nat.lt_or_ge k (i + 1) with hk' | hk'
    · obtain ⟨m, hm, h⟩ := ih k (by omega)
      exact ⟨m, by omega, h⟩
    · have : k = i + 1 := by omega
      exact ⟨j + 1, le_rfl, this ▸ h2⟩

/-- a point of the first curve farther than `w` from all points of the second one -/
theorem frdist_ge {A B : List (ℝ × ℝ)} (hA : A ≠ []) (hB : B ≠ []) (h300 : A.length ≤ 300) (hlim : A.length + B.length - 2 < 100) {d w : ℝ}
    (hd : Frechet.frdist 100 eucl A B = .ok d) {a : ℝ × ℝ} (ha : a ∈ A) (h : ∀ b ∈ B, w ≤ eucl a b) : w ≤ d := by
  obtain ⟨d', hd', hf⟩ := Frechet.C24_frdist_is_discrete_frechet 100 eucl eucl_symm A B hA hB (Or.inl h300) hlim
  rw [hd] at hd'
  injection hd' with hd'
  subst hd'
  rw [Frechet.isDiscreteFrechet_iff hA hB] at hf
  have hr := (Frechet.reach_of_isFrechet hf d).2 le_rfl
  obtain ⟨i, hi, rfl⟩ := List.getElem_of_mem ha
  obtain ⟨m, hm, hle⟩ := hr.visits i (by omega)
  have hB' : 0 < B.length := List.length_pos_iff.2 hB
  have hmB : m < B.length := by omega
  rw [Frechet.distAt_eq (List.getElem?_eq_getElem hi) (List.getElem?_eq_getElem hmB)] at hle
  exact (h _ (List.getElem_mem hmB)).trans hle

/-- the first points -/
theorem frdist_ge_first {A B : List (ℝ × ℝ)} {a b : ℝ × ℝ} (h300 : (a :: A).length ≤ 300) (hlim : (a :: A).length + (b :: B).length - 2 < 100)
    {d : ℝ} (hd : Frechet.frdist 100 eucl (a :: A) (b :: B) = .ok d) : eucl a b ≤ d := by
  have hA : a :: A ≠ [] := by simp
  have hB : b :: B ≠ [] := by simp
  obtain ⟨d', hd', hf⟩ := Frechet.C24_frdist_is_discrete_frechet 100 eucl eucl_symm _ _ hA hB (Or.inl h300) hlim
  rw [hd] at hd'
  injection hd' with hd'
  subst hd'
  rw [Frechet.isDiscreteFrechet_iff hA hB] at hf
  have hr := ((Frechet.reach_of_isFrechet hf d).2 le_rfl).first
  rwa [Frechet.distAt_eq (a := a) (b := b) rfl rfl] at hr

/-- a score below `x` -/
theorem score_below {A B : List (ℝ × ℝ)} {v d h x w : ℝ} (hv : similarity 100 A B = .ok (some v)) (hd : Frechet.frdist 100 eucl A B = .ok d)
    (hA : 0 < arcLength A) (hB : 0 < arcLength B) (hA' : arcLength A ≤ h) (hB' : arcLength B ≤ h) (hw : w ≤ d) (hw0 : 0 ≤ w) (hx : 0 ≤ x)
    (hr : (1 - x) * h ≤ w * (1414 / 1000)) : v ≤ x + 1 / 20000 := by
  obtain ⟨b1, b2, b3⟩ := sqrt2_bounds
  obtain ⟨v', d', h3, h4, -, -, h5⟩ := C28_similarity_range 100 hA hB hv
  rw [hd] at h4
  injection h4 with h4
  subst h4
  injection h3 with h3
  subst h3
  have hg : 0 < Real.sqrt (arcLength A * arcLength B) := Real.sqrt_pos.2 (mul_pos hA hB)
  have hgh : Real.sqrt (arcLength A * arcLength B) ≤ h :=
    Real.sqrt_le_iff.2 ⟨hA.le.trans hA', by rw [sq]; exact mul_le_mul hA' hB' hB.le (hA.le.trans hA')⟩
  have h1 : 1 - x ≤ d * Real.sqrt 2 / Real.sqrt (arcLength A * arcLength B) := by
    rw [le_div_iff₀ hg]
    have e1 : w * (1414 / 1000) ≤ d * Real.sqrt 2 := mul_le_mul hw b1.le (by norm_num) (hw0.trans hw)
    rcases le_or_gt (1 - x) 0 with h0 | h0
    · have : (1 - x) * Real.sqrt (arcLength A * arcLength B) ≤ 0 := mul_nonpos_of_nonpos_of_nonneg h0 hg.le
      have : 0 ≤ d * Real.sqrt 2 := mul_nonneg (hw0.trans hw) (Real.sqrt_nonneg 2)
      linarith
    · have := mul_le_mul_of_nonneg_left hgh h0.le
      linarith
  have h2 : max (1 - d * Real.sqrt 2 / Real.sqrt (arcLength A * arcLength B)) 0 ≤ x := max_le (by linarith) hx
  have := (abs_le.1 h5).2
  linarith

/-- a score above `x` -/
theorem score_above {A B : List (ℝ × ℝ)} {v d h x w : ℝ} (hv : similarity 100 A B = .ok (some v)) (hd : Frechet.frdist 100 eucl A B = .ok d)
    (hh : 0 < h) (hA' : h ≤ arcLength A) (hB' : h ≤ arcLength B) (hw : d ≤ w) (hx : x ≤ 1)
    (hr : w * (1415 / 1000) ≤ (1 - x) * h) : x - 1 / 20000 ≤ v := by
  obtain ⟨b1, b2, b3⟩ := sqrt2_bounds
  have hA := hh.trans_le hA'
  have hB := hh.trans_le hB'
  obtain ⟨v', d', h3, h4, -, -, h5⟩ := C28_similarity_range 100 hA hB hv
  rw [hd] at h4
  injection h4 with h4
  subst h4
  injection h3 with h3
  subst h3
  have hd0 := Frechet.C25_frdist_nonneg 100 eucl eucl_symm eucl_nonneg _ _ _ hd
  have hg : 0 < Real.sqrt (arcLength A * arcLength B) := Real.sqrt_pos.2 (mul_pos hA hB)
  have hgh : h ≤ Real.sqrt (arcLength A * arcLength B) :=
    Real.le_sqrt_of_sq_le (by rw [sq]; exact mul_le_mul hA' hB' hh.le hA.le)
  have h1 : d * Real.sqrt 2 / Real.sqrt (arcLength A * arcLength B) ≤ 1 - x := by
    rw [div_le_iff₀ hg]
    have e1 : d * Real.sqrt 2 ≤ w * (1415 / 1000) := mul_le_mul hw b2.le (Real.sqrt_nonneg 2) (hd0.trans hw)
    have := mul_le_mul_of_nonneg_left hgh (by linarith : 0 ≤ 1 - x)
    linarith
  have h2 : x ≤ max (1 - d * Real.sqrt 2 / Real.sqrt (arcLength A * arcLength B)) 0 := le_max_of_le_left (by linarith)
  have := (abs_le.1 h5).1
  linarith

theorem frdist_le {A B : List (ℝ × ℝ)} (hA : A ≠ []) (hB : B ≠ []) (h300 : A.length ≤ 300) (hlim : A.length + B.length - 2 < 100) {d w : ℝ}
    (hd : Frechet.frdist 100 eucl A B = .ok d) (h : Frechet.Reach (Frechet.distAt eucl A B) w (A.length - 1) (B.length - 1)) : d ≤ w := by
  obtain ⟨d', hd', hf⟩ := Frechet.C24_frdist_is_discrete_frechet 100 eucl eucl_symm A B hA hB (Or.inl h300) hlim
  rw [hd] at hd'
  injection hd' with hd'
  subst hd'
  rw [Frechet.isDiscreteFrechet_iff hA hB] at hf
  exact (Frechet.reach_of_isFrechet hf w).1 h

theorem eucl_le' {p q : ℝ × ℝ} {k : ℝ} (hk : 0 ≤ k) (h : (p.1 - q.1) ^ 2 + (p.2 - q.2) ^ 2 ≤ k ^ 2) : eucl p q ≤ k :=
  Real.sqrt_le_iff.2 ⟨hk, h⟩

theorem le_eucl' {p q : ℝ × ℝ} {k : ℝ} (h : k ^ 2 ≤ (p.1 - q.1) ^ 2 + (p.2 - q.2) ^ 2) : k ≤ eucl p q :=
  Real.le_sqrt_of_sq_le h

/-- half the height of the hexagon on the ellipse -/
noncomputable def lgR (s : ℝ) : ℝ := lvQ s * (Real.sqrt 3 / 2)

theorem lgR_sq {s : ℝ} (s0 : 0 < s) : lgR s ^ 2 = 3 / 4 * (s / (1 + s) * (1 / 2 + s) ^ 2) := by
  unfold lgR lvQ
  rw [mul_pow, Real.sq_sqrt (by positivity), div_pow, Real.sq_sqrt (by norm_num)]
  ring

theorem lgR_pos {s : ℝ} (s0 : 0 < s) : 0 < lgR s :=
  mul_pos (Real.sqrt_pos.2 (by positivity)) (div_pos (Real.sqrt_pos.2 (by norm_num)) (by norm_num))

theorem lgLen_pts_quarter : 34 / 10 ≤ arcLength (lvPts (1 / 4)) ∧ arcLength (lvPts (1 / 4)) ≤ 342 / 100 := by
  rw [C28_arcLength_sum]
  simp only [lvPts, List.tail_cons, List.zip_cons_cons, List.zip_nil_right, List.map_cons, List.map_nil, List.sum_cons, List.sum_nil]
  constructor
  · have h1 := le_eucl' (p := (-(1 / 2), -(1 / 4))) (q := (1 / 2, -(1 / 4))) (k := 1) (by norm_num)
    have h2 := le_eucl' (p := (1 / 2, -(1 / 4))) (q := (1 / 2 + 1 / 4, 0)) (k := 353 / 1000) (by norm_num)
    have h3 := le_eucl' (p := (1 / 2 + 1 / 4, 0)) (q := (1 / 2, 1 / 4)) (k := 353 / 1000) (by norm_num)
    have h4 := le_eucl' (p := (1 / 2, 1 / 4)) (q := (-(1 / 2), 1 / 4)) (k := 1) (by norm_num)
    have h5 := le_eucl' (p := (-(1 / 2), 1 / 4)) (q := (-(1 / 2 + 1 / 4), 0)) (k := 353 / 1000) (by norm_num)
    have h6 := le_eucl' (p := (-(1 / 2 + 1 / 4), 0)) (q := (-(1 / 2), -(1 / 4))) (k := 353 / 1000) (by norm_num)
    linarith
  · have h1 := eucl_le' (p := (-(1 / 2), -(1 / 4))) (q := (1 / 2, -(1 / 4))) (k := 1) (by norm_num) (by norm_num)
    have h2 := eucl_le' (p := (1 / 2, -(1 / 4))) (q := (1 / 2 + 1 / 4, 0)) (k := 354 / 1000) (by norm_num) (by norm_num)
    have h3 := eucl_le' (p := (1 / 2 + 1 / 4, 0)) (q := (1 / 2, 1 / 4)) (k := 354 / 1000) (by norm_num) (by norm_num)
    have h4 := eucl_le' (p := (1 / 2, 1 / 4)) (q := (-(1 / 2), 1 / 4)) (k := 1) (by norm_num) (by norm_num)
    have h5 := eucl_le' (p := (-(1 / 2), 1 / 4)) (q := (-(1 / 2 + 1 / 4), 0)) (k := 354 / 1000) (by norm_num) (by norm_num)
    have h6 := eucl_le' (p := (-(1 / 2 + 1 / 4), 0)) (q := (-(1 / 2), -(1 / 4))) (k := 354 / 1000) (by norm_num) (by norm_num)
    linarith

theorem lgLen_pts_eighths : 41 / 10 ≤ arcLength (lvPts (3 / 8)) := by
  rw [C28_arcLength_sum]
  simp only [lvPts, List.tail_cons, List.zip_cons_cons, List.zip_nil_right, List.map_cons, List.map_nil, List.sum_cons, List.sum_nil]
  have h1 := le_eucl' (p := (-(1 / 2), -(3 / 8))) (q := (1 / 2, -(3 / 8))) (k := 1) (by norm_num)
  have h2 := le_eucl' (p := (1 / 2, -(3 / 8))) (q := (1 / 2 + 3 / 8, 0)) (k := 53 / 100) (by norm_num)
  have h3 := le_eucl' (p := (1 / 2 + 3 / 8, 0)) (q := (1 / 2, 3 / 8)) (k := 53 / 100) (by norm_num)
  have h4 := le_eucl' (p := (1 / 2, 3 / 8)) (q := (-(1 / 2), 3 / 8)) (k := 1) (by norm_num)
  have h5 := le_eucl' (p := (-(1 / 2), 3 / 8)) (q := (-(1 / 2 + 3 / 8), 0)) (k := 53 / 100) (by norm_num)
  have h6 := le_eucl' (p := (-(1 / 2 + 3 / 8), 0)) (q := (-(1 / 2), -(3 / 8))) (k := 53 / 100) (by norm_num)
  linarith

theorem lgLen_curve (s : ℝ) : arcLength (lvCurve s) =
    4 * Real.sqrt (((1 / 2 + s) / 2) ^ 2 + lgR s ^ 2) + 2 * Real.sqrt ((1 / 2 + s) ^ 2) := by
  rw [C28_arcLength_sum]
  unfold lvCurve
  rw [← lgR]
  simp only [lvHex, List.tail_cons, List.zip_cons_cons, List.zip_nil_right, List.map_cons, List.map_nil, List.sum_cons, List.sum_nil, eucl]
  have e : ∀ x y : ℝ, x = y → Real.sqrt x = Real.sqrt y := fun _ _ h => by rw [h]
  rw [e ((1 / 2 + s - (1 / 2 + s) / 2) ^ 2 + (0 - lgR s) ^ 2) (((1 / 2 + s) / 2) ^ 2 + lgR s ^ 2) (by ring),
    e (((1 / 2 + s) / 2 - -((1 / 2 + s) / 2)) ^ 2 + (lgR s - lgR s) ^ 2) ((1 / 2 + s) ^ 2) (by ring),
    e ((-((1 / 2 + s) / 2) - -(1 / 2 + s)) ^ 2 + (lgR s - 0) ^ 2) (((1 / 2 + s) / 2) ^ 2 + lgR s ^ 2) (by ring),
    e ((-(1 / 2 + s) - -((1 / 2 + s) / 2)) ^ 2 + (0 - -lgR s) ^ 2) (((1 / 2 + s) / 2) ^ 2 + lgR s ^ 2) (by ring),
    e ((-((1 / 2 + s) / 2) - (1 / 2 + s) / 2) ^ 2 + (-lgR s - -lgR s) ^ 2) ((1 / 2 + s) ^ 2) (by ring),
    e (((1 / 2 + s) / 2 - (1 / 2 + s)) ^ 2 + (-lgR s - 0) ^ 2) (((1 / 2 + s) / 2) ^ 2 + lgR s ^ 2) (by ring)]
  ring

theorem lgLen_curve_quarter : 0 < arcLength (lvCurve (1 / 4)) ∧ arcLength (lvCurve (1 / 4)) ≤ 342 / 100 := by
  have h2 := lgR_sq (s := 1 / 4) (by norm_num)
  rw [lgLen_curve, h2, Real.sqrt_sq (by norm_num)]
  have h : Real.sqrt (((1 / 2 + 1 / 4) / 2) ^ 2 + 3 / 4 * (1 / 4 / (1 + 1 / 4) * (1 / 2 + 1 / 4) ^ 2)) ≤ 48 / 100 :=
    Real.sqrt_le_iff.2 ⟨by norm_num, by norm_num⟩
  have h0 := Real.sqrt_nonneg (((1 / 2 + 1 / 4) / 2) ^ 2 + 3 / 4 * (1 / 4 / (1 + 1 / 4) * (1 / 2 + 1 / 4) ^ 2))
  constructor <;> linarith

theorem lgLen_curve_eighths : 41 / 10 ≤ arcLength (lvCurve (3 / 8)) := by
  have h2 := lgR_sq (s := 3 / 8) (by norm_num)
  rw [lgLen_curve, h2, Real.sqrt_sq (by norm_num)]
  have h : 588 / 1000 ≤ Real.sqrt (((1 / 2 + 3 / 8) / 2) ^ 2 + 3 / 4 * (3 / 8 / (1 + 3 / 8) * (1 / 2 + 3 / 8) ^ 2)) :=
    Real.le_sqrt_of_sq_le (by norm_num)
  linarith

theorem lgLen_gauss (s : ℝ) : arcLength (lgPts s) = 4 * Real.sqrt ((2 * s) ^ 2 + (8 * s / 7) ^ 2) := by
  rw [C28_arcLength_sum]
  simp only [lgPts, List.tail_cons, List.zip_cons_cons, List.zip_nil_right, List.map_cons, List.map_nil, List.sum_cons, List.sum_nil, eucl]
  have e : ∀ x y : ℝ, x = y → Real.sqrt x = Real.sqrt y := fun _ _ h => by rw [h]
  rw [e ((-(1 / 2) - (-(1 / 2) + 2 * s)) ^ 2 + (-(8 * s / 7) - 0) ^ 2) ((2 * s) ^ 2 + (8 * s / 7) ^ 2) (by ring),
    e ((-(1 / 2) + 2 * s - -(1 / 2)) ^ 2 + (0 - 8 * s / 7) ^ 2) ((2 * s) ^ 2 + (8 * s / 7) ^ 2) (by ring),
    e ((-(1 / 2) - (-(1 / 2) - 2 * s)) ^ 2 + (8 * s / 7 - 0) ^ 2) ((2 * s) ^ 2 + (8 * s / 7) ^ 2) (by ring),
    e ((-(1 / 2) - 2 * s - -(1 / 2)) ^ 2 + (0 - -(8 * s / 7)) ^ 2) ((2 * s) ^ 2 + (8 * s / 7) ^ 2) (by ring)]
  ring

/-- the scores of the ellipse -/
theorem lgSim_ellipse : ∃ v w : ℝ, similarity 100 (lvPts (1 / 4)) (lvCurve (1 / 4)) = .ok (some v) ∧
    similarity 100 (lvPts (3 / 8)) (lvCurve (3 / 8)) = .ok (some w) ∧ v < w := by
  obtain ⟨v, hv⟩ := lvSim (1 / 4)
  obtain ⟨w, hw⟩ := lvSim (3 / 8)
  obtain ⟨a1, a2⟩ := lgLen_pts_quarter
  obtain ⟨a3, a4⟩ := lgLen_curve_quarter
  have a5 := lgLen_pts_eighths
  have a6 := lgLen_curve_eighths
  obtain ⟨v', d, rfl, hd, -⟩ := C28_similarity_range 100 (by linarith) a3 hv
  obtain ⟨w', d', rfl, hd', -⟩ := C28_similarity_range 100 (by linarith) (by linarith) hw
  refine ⟨v', w', hv, hw, ?_⟩
  have h1 : (127 / 100 : ℝ) ≤ d := by
    refine le_trans (le_eucl' ?_) (frdist_ge_first (a := (-(1 / 2), -(1 / 4))) (b := (1 / 2 + 1 / 4, 0)) ?_ ?_ hd)
    · norm_num
    · simp
    · simp
  have h2 : d' ≤ 1426 / 1000 := by
    have hR := lgR_sq (s := 3 / 8) (by norm_num)
    have hR0 := lgR_pos (s := 3 / 8) (by norm_num)
    have hR1 : lgR (3 / 8) ≤ 4 / 10 := by
      by_contra hlt
      push Not at hlt
      norm_num at hR
      nlinarith
    have hR2 : lgR (3 / 8) ^ 2 ≤ 16 / 100 := by rw [hR]; norm_num
    refine frdist_le (by simp [lvPts]) (by simp [lvCurve, lvHex]) (by simp [lvPts]) (by simp [lvPts, lvCurve, lvHex]) hd' ?_
    have e1 : ∀ i a b, (lvPts (3 / 8))[i]? = some a → (lvCurve (3 / 8))[i]? = some b → (a.1 - b.1) ^ 2 + (a.2 - b.2) ^ 2 ≤ (1426 / 1000) ^ 2 →
        Frechet.distAt eucl (lvPts (3 / 8)) (lvCurve (3 / 8)) i i ≤ 1426 / 1000 := by
      intro i a b ha hb h
      rw [Frechet.distAt_eq ha hb]
      exact eucl_le' (by norm_num) h
    have hdef : lvQ (3 / 8) * (Real.sqrt 3 / 2) = lgR (3 / 8) := rfl
    show Frechet.Reach _ _ 6 6
    refine .diag (.diag (.diag (.diag (.diag (.diag (.base (e1 _ _ _ rfl rfl ?_)) (e1 _ _ _ rfl rfl ?_)) (e1 _ _ _ rfl rfl ?_))
      (e1 _ _ _ rfl rfl ?_)) (e1 _ _ _ rfl rfl ?_)) (e1 _ _ _ rfl rfl ?_)) (e1 _ _ _ rfl rfl ?_) <;> (try rw [hdef]) <;> nlinarith
  have h3 := score_below hv hd (by linarith) a3 a2 a4 h1 (by norm_num) (x := 48 / 100) (by norm_num) (by norm_num)
  have h4 := score_above hw hd' (by norm_num) a5 a6 h2 (x := 50 / 100) (by norm_num) (by norm_num)
  linarith

/-- the scores of the Gaussian -/
theorem lgSim_gauss : ∃ v w : ℝ, similarity 100 (lvPts (1 / 4)) (lgPts (1 / 4)) = .ok (some v) ∧
    similarity 100 (lvPts (3 / 8)) (lgPts (3 / 8)) = .ok (some w) ∧ v < w := by
  have hex : ∀ s, ∃ v, similarity 100 (lvPts s) (lgPts s) = .ok v := by
    intro s
    obtain ⟨d, hd, _⟩ := Frechet.C24_frdist_is_discrete_frechet 100 eucl eucl_symm (lvPts s) (lgPts s) (by simp [lvPts])
      (by simp [lgPts]) (Or.inl (by simp [lvPts])) (by simp [lvPts, lgPts])
    unfold similarity
    simp only [hd, bind, Except.bind, pure, Except.pure]
    split <;> exact ⟨_, rfl⟩
  obtain ⟨v, hv⟩ := hex (1 / 4)
  obtain ⟨w, hw⟩ := hex (3 / 8)
  obtain ⟨a1, a2⟩ := lgLen_pts_quarter
  have a5 := lgLen_pts_eighths
  have a3 : 0 < arcLength (lgPts (1 / 4)) ∧ arcLength (lgPts (1 / 4)) ≤ 342 / 100 := by
    rw [lgLen_gauss]
    have h : Real.sqrt ((2 * (1 / 4)) ^ 2 + (8 * (1 / 4) / 7) ^ 2) ≤ 6 / 10 := Real.sqrt_le_iff.2 ⟨by norm_num, by norm_num⟩
    have h0 : 0 < Real.sqrt ((2 * (1 / 4 : ℝ)) ^ 2 + (8 * (1 / 4) / 7) ^ 2) := Real.sqrt_pos.2 (by norm_num)
    constructor <;> linarith
  have a6 : 34 / 10 ≤ arcLength (lgPts (3 / 8)) := by
    rw [lgLen_gauss]
    have h : 85 / 100 ≤ Real.sqrt ((2 * (3 / 8)) ^ 2 + (8 * (3 / 8) / 7) ^ 2) := Real.le_sqrt_of_sq_le (by norm_num)
    linarith
  obtain ⟨v', d, rfl, hd, -⟩ := C28_similarity_range 100 (by linarith) a3.1 hv
  obtain ⟨w', d', rfl, hd', -⟩ := C28_similarity_range 100 (by linarith) (by linarith) hw
  refine ⟨v', w', hv, hw, ?_⟩
  have h1 : (75 / 100 : ℝ) ≤ d := by
    refine frdist_ge (by simp [lvPts]) (by simp [lgPts]) (by simp [lvPts]) (by simp [lvPts, lgPts]) hd (a := (1 / 2 + 1 / 4, 0)) (by simp [lvPts]) ?_
    intro b hb
    apply le_eucl'
    unfold lgPts at hb
    simp only [List.mem_cons, List.not_mem_nil, or_false] at hb
    rcases hb with rfl | rfl | rfl | rfl | rfl <;> norm_num
  have h2 : d' ≤ 625 / 1000 := by
    refine frdist_le (by simp [lvPts]) (by simp [lgPts]) (by simp [lvPts]) (by simp [lvPts, lgPts]) hd' ?_
    have e1 : ∀ i j a b, (lvPts (3 / 8))[i]? = some a → (lgPts (3 / 8))[j]? = some b → (a.1 - b.1) ^ 2 + (a.2 - b.2) ^ 2 ≤ (625 / 1000) ^ 2 →
        Frechet.distAt eucl (lvPts (3 / 8)) (lgPts (3 / 8)) i j ≤ 625 / 1000 := by
      intro i j a b ha hb h
      rw [Frechet.distAt_eq ha hb]
      exact eucl_le' (by norm_num) h
    show Frechet.Reach _ _ 6 4
    refine .diag (.diag (.diag (.right (.right (.diag (.base (e1 _ _ _ _ rfl rfl ?_)) (e1 _ _ _ _ rfl rfl ?_)) (e1 _ _ _ _ rfl rfl ?_))
      (e1 _ _ _ _ rfl rfl ?_)) (e1 _ _ _ _ rfl rfl ?_)) (e1 _ _ _ _ rfl rfl ?_)) (e1 _ _ _ _ rfl rfl ?_) <;> norm_num
  have h3 := score_below hv hd (by linarith) a3.1 a2 a3.2 h1 (by norm_num) (x := 69 / 100 + 1 / 1000) (by norm_num) (by norm_num)
  have h4 := score_above hw hd' (by norm_num) (h := 34 / 10) (by linarith) a6 h2 (x := 72 / 100) (by norm_num) (by norm_num)
  linarith

/-! ### the two eddies -/

theorem lgExtremum {L : Libs} {s : ℝ} {x : Extremum ℝ} (hx : dataInContour L lvField (lvPts s) = .ok ⟨exWindow, x⟩) (h0 : x.maxima ≠ 0) :
    x.maxima = 1 := by
  obtain ⟨_, _, _, _, _, _, _, hm⟩ := dataInContour_ok hx
  have hval : ∀ r c y, (cut exWindow lvField.data).get r c = some y → y = 0 ∨ y = 1 := by
    intro r c y hy
    simp only [cut, lvField] at hy
    split_ifs at hy <;> simp at hy <;> subst hy <;> simp
  obtain ⟨y, hy, h1, h2, h3⟩ := C42_extremum _ _ _ _ x hm
  have hy' := hval _ _ _ hy.2.2.2
  rcases lt_trichotomy (total (cut exWindow lvField.data).rows (cut exWindow lvField.data).cols (cut exWindow lvField.data).get fun r c =>
    decide (((r : Int), (c : Int)) ∈ fillHoles (cut exWindow lvField.data).rows (cut exWindow lvField.data).cols exWindow.rel.toFinset)) 0
    with ht | ht | ht
  · obtain ⟨-, -, h, -⟩ := h2 ht
    rcases hy' with rfl | rfl <;> linarith
  · exact absurd (h3 ht).2 h0
  · obtain ⟨-, e, h, -⟩ := h1 ht
    rcases hy' with rfl | rfl
    · linarith
    · exact e

theorem lgSurface {s : ℝ} (s0 : 0 < s) {x : Extremum ℝ} (hx : x.maxima = 1) (a b : ℝ) :
    ∃ surf, fitSurface lgLibs lvField ⟨exWindow, x⟩ (a, b, angleOf (lvConic s)) = .ok surf ∧
      SameArr (lgqZ.castO (Rat.castHom ℝ)) surf.1 := by
  have hang : angleOf (lvConic s) = some 0 := by
    unfold angleOf
    rw [if_pos]
    refine ⟨rfl, ?_⟩
    show 49 / 12 / (1 + 2 * s) ^ 2 < 49 / 12 * (1 + s) / s / (1 + 2 * s) ^ 2
    apply div_lt_div_of_pos_right _ (by positivity)
    rw [lt_div_iff₀ s0]
    nlinarith
  unfold fitSurface
  simp only [hang, lgLibs, bind, Except.bind, pure, Except.pure]
  refine ⟨_, rfl, ?_⟩
  obtain ⟨h1, h2, h3⟩ := lgSame
  refine ⟨h1, h2, fun r hr c hc => ?_⟩
  rw [← h3 r hr c hc]
  simp only [maximaOf, hx, cut, exWindow]
  simp

theorem lgStored : ∃ m : ℝ × ℝ × ℝ, ∀ s, s = 1 / 4 ∨ s = 3 / 8 → ∀ v w, similarity 100 (lvPts s) (lvCurve s) = .ok (some v) →
    similarity 100 (lvPts s) (lgPts s) = .ok (some w) → 0 ≤ w → ∃ e : EddyObj,
    examine { lvCriteria with skipGauss := false } lgLibs lvField (1 - s) ((lvPts s).map some) = .ok (.stored e) ∧ e.level = 1 - s ∧ 0 < e.radius ∧
      e.maxima = m ∧ e.ellipseError = some v ∧ e.gaussError = some w := by
  obtain ⟨x, hx0, hx⟩ := lvData
  refine ⟨maximaOf lvField ⟨exWindow, x⟩, ?_⟩
  intro s hs v w hv hw hw0
  have s0 : 0 < s := by rcases hs with rfl | rfl <;> norm_num
  have s1 : s < 1 / 2 := by rcases hs with rfl | rfl <;> norm_num
  obtain ⟨c1, c2, c3⟩ := lvCriteria_ok hs
  obtain ⟨surf, hf1, hf2⟩ := lgSurface s0 (lgExtremum (hx s s0 s1) hx0) (max (1 / 2 + s) (lvQ s)) (min (1 / 2 + s) (lvQ s))
  have hcX : SameArr lvField.X (cut exWindow lvField.X) := ⟨rfl, rfl, fun r _ c _ => by simp [cut, exWindow]⟩
  have hcY : SameArr lvField.Y (cut exWindow lvField.Y) := ⟨rfl, rfl, fun r _ c _ => by simp [cut, exWindow]⟩
  have hcon : contoursOf lgLibs (cut exWindow lvField.X) (cut exWindow lvField.Y) surf.1 (1 - s) = .ok [(lgPts s).map some] := by
    rw [contoursOf_same hcX hcY (SameArr.refl surf.1) ⟨by rw [hf2.rows, hf2.cols]; rfl, by rw [hf2.rows, hf2.cols]; rfl, fun M hM => by cases hM⟩]
    exact lgContours lgLibs hs hf2
  refine ⟨⟨lvPts s, 1 - s, areaPolygon (lvPts s), Real.sqrt (areaPolygon (lvPts s) / Real.pi),
    (max (1 / 2 + s) (lvQ s), min (1 / 2 + s) (lvQ s), angleOf (lvConic s)), some v,
    eccentricity (max (1 / 2 + s) (lvQ s)) (min (1 / 2 + s) (lvQ s)), meanPt (lvPts s), x.sign, maximaOf lvField ⟨exWindow, x⟩, some surf.2, some w⟩,
    ?_, rfl, Real.sqrt_pos.2 (div_pos (lvArea_pos s0 s1) Real.pi_pos), rfl, rfl, rfl⟩
  rw [examine_stored]
  refine ⟨lvSkips s0 s1, rfl, lvCurve s, ⟨exWindow, x⟩, ?_⟩
  refine ⟨rfl, rfl, rfl, rfl, rfl, ?_, lvFit s0, lvFinite s0, c2, rfl, ?_, ?_, ?_, hx s s0 s1, rfl, rfl, hx0,
    Or.inr ⟨rfl, surf, [(lgPts s).map some], lgPts s, hf1, rfl, hcon, by simp, ?_, ?_, ?_⟩⟩
  · rw [lvMean]
    exact c1
  · rintro ⟨u, hu, h1⟩
    simp only at hu
    unfold eccentricity at hu
    split at hu
    · cases hu
    · split at hu
      · cases hu
      · injection hu with hu
        have h2 : u ≤ 1 := by
          rw [← hu]
          apply Real.sqrt_le_one.2
          have : 0 ≤ |min (1 / 2 + s) (lvQ s)| ^ 2 / |max (1 / 2 + s) (lvQ s)| ^ 2 := by positivity
          linarith
        exact absurd h1 (not_lt.2 h2)
  · show liftFr (similarity 100 (lvPts s) (lvCurve s)) = .ok (some v)
    rw [hv]
    rfl
  · rintro ⟨u, hu, h1⟩
    injection hu with hu
    subst hu
    have := (similarity_unit hv).2
    have h1 : lvCriteria.ellipseFit < v := h1
    linarith
  · rw [allPoints_eq]
    simp
  · show liftFr (similarity 100 (lvPts s) (lgPts s)) = .ok (some w)
    rw [hw]
    rfl
  · rintro ⟨u, hu, h1⟩
    injection hu with hu
    subst hu
    have h1 : w < 0 := h1
    linarith

/-- the two eddies: the one of the higher level has the lower scores -/
theorem lgFound : ∃ e e' : EddyObj, foundIn { lvCriteria with skipGauss := false } lgLibs lvField (3 / 4) = [e] ∧
    foundIn { lvCriteria with skipGauss := false } lgLibs lvField (5 / 8) = [e'] ∧
    e.level = 3 / 4 ∧ e'.level = 5 / 8 ∧ NearEddy e e' ∧
    (∃ x y, e.ellipseError = some x ∧ e'.ellipseError = some y ∧ x < y) ∧ (∃ x y, e.gaussError = some x ∧ e'.gaussError = some y ∧ x < y) ∧
    ∀ l, l = 3 / 4 ∨ l = 5 / 8 → ∃ t, pureLevel { lvCriteria with skipGauss := false }
      (levelMeasures { lvCriteria with skipGauss := false } lgLibs lvField l) = .ok t := by
  obtain ⟨m, hm⟩ := lgStored
  obtain ⟨v, v', hv, hv', hlt⟩ := lgSim_ellipse
  obtain ⟨w, w', hw, hw', hlt'⟩ := lgSim_gauss
  obtain ⟨e, h1, h2, h3, h4, g1, g2⟩ := hm (1 / 4) (Or.inl rfl) v w hv hw (similarity_unit hw).1
  obtain ⟨e', h1', h2', h3', h4', g1', g2'⟩ := hm (3 / 8) (Or.inr rfl) v' w' hv' hw' (similarity_unit hw').1
  rw [show (1 : ℝ) - 1 / 4 = 3 / 4 by norm_num] at h1 h2
  rw [show (1 : ℝ) - 3 / 8 = 5 / 8 by norm_num] at h1' h2'
  obtain ⟨c1, c2⟩ := lvField_contours lgLibs
  have near : ∀ a b : EddyObj, a.maxima = b.maxima → 0 < a.radius → NearEddy a b := by
    intro a b hab ha
    unfold NearEddy EddyObj.place
    rw [hab, ← C83_great_circle]
    have h0 : ∀ p : ℝ × ℝ, haversine p p = 0 := by intro p; simp [haversine]
    rw [h0, zero_mul]
    exact ha
  refine ⟨e, e', ?_, ?_, h2, h2', near e e' (h4.trans h4'.symm) h3, ⟨v, v', g1, g1', hlt⟩, ⟨w, w', g2, g2', hlt'⟩, ?_⟩
  · unfold foundIn
    have hse : storedEddy { lvCriteria with skipGauss := false } lgLibs lvField (3 / 4) ((lvPts (1 / 4)).map some) = some e := by
      unfold storedEddy; rw [h1]
    rw [c1, List.filterMap_cons_some hse, List.filterMap_nil]
  · unfold foundIn
    have hse : storedEddy { lvCriteria with skipGauss := false } lgLibs lvField (5 / 8) ((lvPts (3 / 8)).map some) = some e' := by
      unfold storedEddy; rw [h1']
    rw [c2, List.filterMap_cons_some hse, List.filterMap_nil]
  · intro l hl
    unfold pureLevel
    have hv : ∀ m ∈ levelMeasures { lvCriteria with skipGauss := false } lgLibs lvField l, ∃ v, verdict { lvCriteria with skipGauss := false } m = .ok v := by
      intro m hm
      unfold levelMeasures at hm
      rcases hl with rfl | rfl
      · rw [c1] at hm
        simp only [List.map_cons, List.map_nil, List.mem_singleton] at hm
        subst hm
        rw [verdict_measures, h1]
        exact ⟨_, rfl⟩
      · rw [c2] at hm
        simp only [List.map_cons, List.map_nil, List.mem_singleton] at hm
        subst hm
        rw [verdict_measures, h1']
        exact ⟨_, rfl⟩
    rw [detectOneLevel_ok _ _ hv]
    exact ⟨_, rfl⟩

theorem lgSnapshots {prunes : Bool} {nn : List (ℝ × ℝ) → ℝ × ℝ → Nat} (hnn : IsNN haversine nn) : ∃ (e e' : EddyObj) (joint cur t : Tbl Cols),
    (snapshotOf (colsEnv prunes nn) { lvCriteria with skipGauss := false } lgLibs lvField [5 / 8] Regs.empty).2 = .ok joint ∧
    (snapshotOf (colsEnv prunes nn) { lvCriteria with skipGauss := false } lgLibs lvField [3 / 4] Regs.empty).2 = .ok cur ∧
    (snapshotOf (colsEnv prunes nn) { lvCriteria with skipGauss := false } lgLibs lvField [5 / 8, 3 / 4] Regs.empty).2 = .ok t ∧
    joint.rows = snapRows [tableRows e'.data] ∧ cur.rows = snapRows [tableRows e.data] ∧ t.rows = snapRows [tableRows e.data] ∧
    joint.rows ≠ [] ∧ cur.rows ≠ [] ∧ e.level = 3 / 4 ∧ e'.level = 5 / 8 ∧
    (∃ x y, e.ellipseError = some x ∧ e'.ellipseError = some y ∧ x < y) ∧ (∃ x y, e.gaussError = some x ∧ e'.gaussError = some y ∧ x < y) := by
  obtain ⟨e, e', f1, f2, l1, l2, hnear, ⟨x, y, hx, hy, hlt⟩, ⟨x', y', hx', hy', hlt'⟩, hok⟩ := lgFound
  obtain ⟨cur, hcur⟩ := hok (3 / 4) (Or.inl rfl)
  obtain ⟨joint, hjoint⟩ := hok (5 / 8) (Or.inr rfl)
  have hn : tableRows e.data ≠ [] := foundIn_ne lvField_ok _ e (by rw [f1]; simp)
  have hn' : tableRows e'.data ≠ [] := foundIn_ne lvField_ok _ e' (by rw [f2]; simp)
  have hrc : cur.rows = snapRows [tableRows e.data] := by
    rw [pureLevel_rows hcur, storedOf_contours lvField_ok]
    exact congrArg (fun l => snapRows (l.map EddyObj.rows)) f1
  have hrj : joint.rows = snapRows [tableRows e'.data] := by
    rw [pureLevel_rows hjoint, storedOf_contours lvField_ok]
    exact congrArg (fun l => snapRows (l.map EddyObj.rows)) f2
  have hne : ∀ o : EddyObj, tableRows o.data ≠ [] → snapRows [tableRows o.data] ≠ [] := by
    intro o ho
    unfold snapRows eddyRows
    simpa using ho
  obtain ⟨v, tv, hv⟩ := List.exists_cons_of_ne_nil hn
  obtain ⟨u, tu, hu⟩ := List.exists_cons_of_ne_nil hn'
  have mv : v ∈ tableRows e.data := by rw [hv]; simp
  have mu : u ∈ tableRows e'.data := by rw [hu]; simp
  have sc : ∀ (o : EddyObj) (r : Cols), r ∈ tableRows o.data → (colsEnv prunes nn).ellErr r = o.ellipseError ∧
      (colsEnv prunes nn).gauErr r = o.gaussError := by
    intro o r hr
    obtain ⟨p, -, rfl⟩ := List.mem_map.1 hr
    cases hg : o.gauss <;> constructor <;> simp [colsEnv, realEnv, score, columns, EddyObj.data, hg]
  have hnr := (nearE_iff (prunes := prunes) (nn := nn) hn hn').2 hnear
  obtain ⟨t, ht, htr⟩ := (C14_refuted (E := colsEnv prunes nn) hnn (e := tableRows e'.data) (e' := tableRows e.data) (u := u) (v := v)
    (by rw [hu]; rfl) (by rw [hv]; rfl) (by
      obtain ⟨a, b, ha, hb, h⟩ := hnr
      rw [hv] at ha
      rw [hu] at hb
      cases ha
      cases hb
      exact h) hrj (pureLevel_level hjoint).inv.wf hrc (pureLevel_level hcur).inv.wf).1
    ⟨⟨x, y, by rw [(sc e v mv).1, hx], by rw [(sc e' u mu).1, hy], hlt⟩, ⟨x', y', by rw [(sc e v mv).2, hx'], by rw [(sc e' u mu).2, hy'], hlt'⟩⟩
  have jne : joint.rows ≠ [] := by rw [hrj]; exact hne e' hn'
  have cne : cur.rows ≠ [] := by rw [hrc]; exact hne e hn
  refine ⟨e, e', joint, cur, t, ?_, ?_, ?_, hrj, hrc, htr, jne, cne, l1, l2, ⟨x, y, hx, hy, hlt⟩, ⟨x', y', hx', hy', hlt'⟩⟩
  · rw [(snapshotOf_pure _ _ _ lvField_ok _ ⟨rfl, rfl⟩).1]
    unfold pureSnapshot detectSnapshot
    rw [show ([5 / 8] : List ℝ).filter (· ≠ 0) = [5 / 8] by norm_num]
    simp only [List.foldlM_cons, List.foldlM_nil, levelStep, bind, Except.bind, pure, Except.pure, hjoint, jne, if_false, if_true]
  · rw [(snapshotOf_pure _ _ _ lvField_ok _ ⟨rfl, rfl⟩).1]
    unfold pureSnapshot detectSnapshot
    rw [show ([3 / 4] : List ℝ).filter (· ≠ 0) = [3 / 4] by norm_num]
    simp only [List.foldlM_cons, List.foldlM_nil, levelStep, bind, Except.bind, pure, Except.pure, hcur, cne, if_false, if_true]
  · rw [(snapshotOf_pure _ _ _ lvField_ok _ ⟨rfl, rfl⟩).1]
    unfold pureSnapshot detectSnapshot
    rw [show ([5 / 8, 3 / 4] : List ℝ).filter (· ≠ 0) = [5 / 8, 3 / 4] by norm_num]
    simp only [List.foldlM_cons, List.foldlM_nil, levelStep, bind, Except.bind, pure, Except.pure, hjoint, hcur, jne, cne, if_false, if_true, ht]

theorem lgRow {o : EddyObj} {r : Row Cols} (ho : r ∈ snapRows [tableRows o.data]) : column "level" r.val = o.level ∧
    ("contour_ellipse_error", o.ellipseError) ∈ r.val ∧ ("contour_gaussian_error", o.gaussError) ∈ r.val := by
  unfold snapRows eddyRows at ho
  simp only [List.mapIdx_cons, List.mapIdx_nil, List.flatten_cons, List.flatten_nil, List.append_nil] at ho
  obtain ⟨j, hj, rfl⟩ := List.mem_mapIdx.1 ho
  have := List.getElem_mem (l := tableRows o.data) hj
  obtain ⟨p, -, hp⟩ := List.mem_map.1 this
  simp only
  rw [← hp]
  refine ⟨by simp [column, columns, EddyObj.data], by simp [columns, EddyObj.data], by simp [columns, EddyObj.data]⟩

/-- **C121** is false when the Gaussian is fitted, from the map on: for two adjacent grid points with value 1 among zeros, the level 5/8 gives an
eddy, and with the further level 3/4 no eddy of the level 5/8 is left. -/
theorem C121_refuted_from_data : ∃ (c : Criteria ℝ) (L : Libs) (S : Fields), S.Ok ∧ S.Rectilinear ∧ L.Nearest ∧ c.skipGauss = false ∧
    ∀ (prunes : Bool) (nn : List (ℝ × ℝ) → ℝ × ℝ → Nat), IsNN haversine nn → ∃ C C',
      (snapshotOf (colsEnv prunes nn) c L S [5 / 8] Regs.empty).2 = .ok C ∧
      (snapshotOf (colsEnv prunes nn) c L S [5 / 8, 3 / 4] Regs.empty).2 = .ok C' ∧ C.rows ≠ [] ∧ C'.rows ≠ [] ∧
      (∀ r ∈ C.rows, column "level" r.val = 5 / 8) ∧ ∀ r ∈ C'.rows, column "level" r.val = 3 / 4 := by
  refine ⟨{ lvCriteria with skipGauss := false }, lgLibs, lvField, lvField_ok, lvField_rect, lgLibs_nearest, rfl, ?_⟩
  intro prunes nn hnn
  obtain ⟨e, e', joint, cur, t, h1, -, h3, r1, r2, r3, n1, n2, l1, l2, -, -⟩ := lgSnapshots (prunes := prunes) hnn
  refine ⟨joint, t, h1, h3, n1, by rw [r3, ← r2]; exact n2, ?_, ?_⟩
  · intro r hr
    rw [r1] at hr
    exact (lgRow hr).1.trans l2
  · intro r hr
    rw [r3] at hr
    exact (lgRow hr).1.trans l1

/-- **C14** is false from the map on: of the eddies that the levels 5/8 and 3/4 give on their own, the one of 5/8 fits its ellipse and its Gaussian
better, and the two levels together keep the other one. -/
theorem C14_refuted_from_data : ∃ (c : Criteria ℝ) (L : Libs) (S : Fields), S.Ok ∧ S.Rectilinear ∧ L.Nearest ∧ c.skipGauss = false ∧
    ∀ (prunes : Bool) (nn : List (ℝ × ℝ) → ℝ × ℝ → Nat), IsNN haversine nn → ∃ C C' C'',
      (snapshotOf (colsEnv prunes nn) c L S [5 / 8] Regs.empty).2 = .ok C ∧
      (snapshotOf (colsEnv prunes nn) c L S [3 / 4] Regs.empty).2 = .ok C' ∧
      (snapshotOf (colsEnv prunes nn) c L S [5 / 8, 3 / 4] Regs.empty).2 = .ok C'' ∧ C.rows ≠ [] ∧ C'.rows ≠ [] ∧
      (∀ r ∈ C.rows, ∀ r' ∈ C'.rows,
        (∃ x y, ("contour_ellipse_error", some x) ∈ r'.val ∧ ("contour_ellipse_error", some y) ∈ r.val ∧ x < y) ∧
        (∃ x y, ("contour_gaussian_error", some x) ∈ r'.val ∧ ("contour_gaussian_error", some y) ∈ r.val ∧ x < y)) ∧
      C''.rows = C'.rows := by
  refine ⟨{ lvCriteria with skipGauss := false }, lgLibs, lvField, lvField_ok, lvField_rect, lgLibs_nearest, rfl, ?_⟩
  intro prunes nn hnn
  obtain ⟨e, e', joint, cur, t, h1, h2, h3, r1, r2, r3, n1, n2, -, -, ⟨x, y, hx, hy, hlt⟩, ⟨x', y', hx', hy', hlt'⟩⟩ :=
    lgSnapshots (prunes := prunes) hnn
  refine ⟨joint, cur, t, h1, h2, h3, n1, n2, ?_, by rw [r3, r2]⟩
  intro r hr r' hr'
  rw [r1] at hr
  rw [r2] at hr'
  obtain ⟨-, a1, a2⟩ := lgRow hr
  obtain ⟨-, b1, b2⟩ := lgRow hr'
  rw [hy] at a1
  rw [hy'] at a2
  rw [hx] at b1
  rw [hx'] at b2
  exact ⟨⟨x, y, b1, a1, hlt⟩, x', y', b2, a2, hlt'⟩

/-- a nearest neighbour search exists -/
example : ∃ nn, IsNN haversine nn := exists_isNN haversine

end Trackeddy
