import Verif.Model.Misc
import Mathlib.Tactic.Linarith
import Mathlib.Tactic.Positivity
import Mathlib.Tactic.NormNum
import Mathlib.Algebra.Order.Floor.Ring

/-!
C56 (deformation radius), C57 (progress bar), C58 (version guard).
-/
namespace Trackeddy

/-! ### C56 -/

theorem approxRD_eq (x : ℝ) : approxRD x =
    200 * Real.exp (-(9 / 800) * |x| ^ 2) + 60 * Real.exp (-(9 / 16000) * |x| ^ 2) := by
  unfold approxRD
  simp only [sub_zero, sq_abs]
  congr 3 <;> ring

/-- C56: positive, the same on both hemispheres, at most 260 km, which is attained only at the equator. -/
theorem C56_bounds (x : ℝ) : 0 < approxRD x ∧ approxRD (-x) = approxRD x ∧ approxRD x ≤ 260 ∧
    (approxRD x = 260 ↔ x = 0) := by
  have h1 : Real.exp (-(9 / 800) * |x| ^ 2) ≤ 1 := by
    rw [Real.exp_le_one_iff]
    have := sq_nonneg |x|
    linarith
  have h2 : Real.exp (-(9 / 16000) * |x| ^ 2) ≤ 1 := by
    rw [Real.exp_le_one_iff]
    have := sq_nonneg |x|
    linarith
  refine ⟨?_, ?_, ?_, ?_⟩
  · rw [approxRD_eq]; positivity
  · rw [approxRD_eq, approxRD_eq, abs_neg]
  · rw [approxRD_eq]; linarith
  · constructor
    · intro h
      rw [approxRD_eq] at h
      have h3 : Real.exp (-(9 / 800) * |x| ^ 2) = 1 := by linarith
      rw [Real.exp_eq_one_iff] at h3
      have h4 : |x| ^ 2 = 0 := by linarith
      simpa using h4
    · rintro rfl
      rw [approxRD_eq]
      simp
      norm_num

/-- C56: strictly decreasing with the distance from the equator. -/
theorem C56_decreasing (x y : ℝ) (h : |x| < |y|) : approxRD y < approxRD x := by
  rw [approxRD_eq, approxRD_eq]
  have hsq : |x| ^ 2 < |y| ^ 2 := pow_lt_pow_left₀ h (abs_nonneg x) (by norm_num)
  have h1 : Real.exp (-(9 / 800) * |y| ^ 2) < Real.exp (-(9 / 800) * |x| ^ 2) := by
    rw [Real.exp_lt_exp]; linarith
  have h2 : Real.exp (-(9 / 16000) * |y| ^ 2) < Real.exp (-(9 / 16000) * |x| ^ 2) := by
    rw [Real.exp_lt_exp]; linarith
  linarith

example : |(10 : ℝ)| < |(-20 : ℝ)| := by norm_num

/-! ### C57 -/

/-- C57: while the work done does not exceed the total, the bar has eleven characters, consisting of finished
steps, the head and blanks, and the percentage is between 0 and 100. `time_tracking` uses step 1. -/
theorem C57_width (maxv step i : ℚ) (hm : 0 < maxv) (hs : 0 < step) (hi : 0 ≤ i) (hle : step * (i + 1) ≤ maxv) :
    (bar maxv step i).length = 11 ∧
    ∃ p : Nat, p ≤ 10 ∧ bar maxv step i = List.replicate p '=' ++ '>' :: List.replicate (10 - p) ' ' ∧
      (p : ℚ) ≤ 10 * (step * (i + 1)) / maxv ∧ 10 * (step * (i + 1)) / maxv < p + 1 := by
  have hpos : 0 < step * (i + 1) := by positivity
  have he : 10 / (maxv / (step * (i + 1))) = 10 * (step * (i + 1)) / maxv := by field_simp
  have h0 : 0 ≤ barProgress maxv step i := by
    unfold barProgress
    rw [he]
    apply Int.floor_nonneg.mpr
    positivity
  have h10 : barProgress maxv step i ≤ 10 := by
    unfold barProgress
    rw [he, Int.floor_le_iff, div_lt_iff₀ hm]
    push_cast
    linarith
  have hbar : bar maxv step i = List.replicate (barProgress maxv step i).toNat '=' ++
      '>' :: List.replicate (10 - (barProgress maxv step i).toNat) ' ' := by
    unfold bar rep
    rw [List.append_assoc, List.singleton_append,
      show (10 - barProgress maxv step i).toNat = 10 - (barProgress maxv step i).toNat by omega]
  have hp : ((barProgress maxv step i).toNat : ℚ) = (barProgress maxv step i : ℚ) := by
    exact_mod_cast congrArg (Int.cast (R := ℚ)) (Int.toNat_of_nonneg h0)
  refine ⟨?_, (barProgress maxv step i).toNat, by omega, hbar, ?_, ?_⟩
  · rw [hbar]
    simp
    omega
  · rw [hp]
    unfold barProgress
    rw [he]
    exact Int.floor_le _
  · rw [hp]
    unfold barProgress
    rw [he]
    exact Int.lt_floor_add_one _

/-- C57: the percentage lies between 0 and 100, and is 100 exactly at the last time. -/
theorem C57_percent (maxv i : ℚ) (hm : 0 < maxv) (hi : 0 ≤ i) (hle : i + 1 ≤ maxv) :
    0 < percent maxv i ∧ percent maxv i ≤ 100 ∧ (percent maxv i = 100 ↔ i + 1 = maxv) := by
  unfold percent
  refine ⟨by positivity, ?_, ?_⟩
  · have : (i + 1) / maxv ≤ 1 := by rw [div_le_one hm]; exact hle
    linarith
  · constructor
    · intro h
      have : (i + 1) / maxv = 1 := by linarith
      rwa [div_eq_one_iff_eq hm.ne'] at this
    · intro h
      rw [h, div_self hm.ne', one_mul]

example : bar 7 1 3 = "=====>     ".toList := by decide +kernel

/-! ### C58 -/

theorem digits_ge_ten (n : Nat) (hn : 2 ≤ n) : ¬ Nat.toDigits 10 n < ['1', '0'] := by
  induction n using Nat.strong_induction_on with
  | _ n ih =>
    by_cases h : n < 100
    · have : ∀ m < 100, 2 ≤ m → ¬ Nat.toDigits 10 m < ['1', '0'] := by decide +kernel
      exact this n h hn
    · have h1 := ih (n / 10) (by omega) (by omega)
      have e : Nat.toDigits 10 n = Nat.toDigits 10 (n / 10) ++ [Nat.digitChar (n % 10)] :=
        Nat.toDigits_of_base_le (by norm_num) (by omega)
      rw [e]
      intro hlt
      exact h1 (List.lt_of_le_of_lt List.le_append_left hlt)

/-- C58 is false: the guard compares strings. Among the versions 3.n exactly 3.0 and 3.1 are rejected, so
every version from 3.2 to 3.9 is accepted. -/
theorem C58_refuted (minor : Nat) (patch : List Char) (hp : ¬ patch < ['0']) :
    guardRaises 3 minor patch = true ↔ minor = 0 ∨ minor = 1 := by
  have e3 : Nat.toDigits 10 3 = ['3'] := by decide +kernel
  unfold guardRaises
  simp only [tupleLt, e3, if_true]
  constructor
  · intro h
    by_contra hne
    have h2 : 2 ≤ minor := by omega
    have := digits_ge_ten minor h2
    split at h
    · split at h
      · simp at h
      · exact hp (by simpa using h)
    · exact this (by simpa using h)
  · have h0 : Nat.toDigits 10 0 < ['1', '0'] ∧ Nat.toDigits 10 0 ≠ ['1', '0'] := by decide +kernel
    have h1 : Nat.toDigits 10 1 < ['1', '0'] ∧ Nat.toDigits 10 1 ≠ ['1', '0'] := by decide +kernel
    rintro (rfl | rfl)
    · rw [if_neg h0.2]; exact decide_eq_true h0.1
    · rw [if_neg h1.2]; exact decide_eq_true h1.1

/-- the patch level is a number, possibly followed by letters: it is never below "0" -/
theorem patch_ok (n : Nat) (s : List Char) : ¬ Nat.toDigits 10 n ++ s < ['0'] := by
  intro h
  have h1 : Nat.toDigits 10 n < ['0'] := List.lt_of_le_of_lt List.le_append_left h
  rcases Nat.lt_or_ge n 2 with hn | hn
  · have : ∀ m < 2, ¬ Nat.toDigits 10 m < ['0'] := by decide +kernel
    exact this n hn h1
  · have : (['0'] : List Char) < ['1', '0'] := by decide +kernel
    exact digits_ge_ten n hn (List.lt_trans h1 this)

/-- C58, positive part: every version from 3.10 on is accepted. Missing: earlier ones are accepted too. -/
theorem C58_partial (minor patch : Nat) (s : List Char) (hm : 10 ≤ minor) :
    guardRaises 3 minor (Nat.toDigits 10 patch ++ s) = false := by
  by_contra h
  rw [Bool.not_eq_false, C58_refuted minor _ (patch_ok patch s)] at h
  omega

/-- Python 3.7.2 passes the guard -/
example : guardRaises 3 7 "2".toList = false := by decide +kernel

end Trackeddy
