import Verif.Proofs.Rounding
import Mathlib.Tactic.NormNum

/-!
C134, C135: what floating-point rounding can change.
-/
namespace Trackeddy

open Frechet Cntr Spec

/-! ### C134: contour vertices and saddles -/

section
variable {K : Type} [Field K] [LinearOrder K] [IsStrictOrderedRing K]

theorem interp_coord {u : K} (h0 : 0 ≤ u) (h1 : u ≤ 1 / 100) {rnd : K → K} (hr : RoundsTo u rnd)
    {lev a b x0 x1 x : K} (hc : a ≤ lev ∧ lev < b ∨ b ≤ lev ∧ lev < a) (hx : IsCrossing lev a b x0 x1 x) :
    |rnd (rnd (rnd (rnd (lev - a) / rnd (b - a)) * rnd (x1 - x0)) + x0) - x| ≤
      6 * u * |x1 - x0| + u * max |x0| |x1| := by
  have hu : u < 1 := by linarith
  have hne : b - a ≠ 0 := by rcases hc with ⟨h, h'⟩ | ⟨h, h'⟩ <;> intro e <;> linarith
  have e : x = (lev - a) / (b - a) * (x1 - x0) + x0 := by
    unfold IsCrossing at hx
    rw [← sub_eq_iff_eq_add, div_mul_eq_mul_div, eq_div_iff hne, hx]
  have t0 : 0 ≤ (lev - a) / (b - a) := by
    rcases hc with ⟨h, h'⟩ | ⟨h, h'⟩
    · exact div_nonneg (by linarith) (by linarith)
    · exact div_nonneg_of_nonpos (by linarith) (by linarith)
  have t1 : (lev - a) / (b - a) ≤ 1 := by
    rcases hc with ⟨h, h'⟩ | ⟨h, h'⟩
    · rw [div_le_one (by linarith)]; linarith
    · rw [div_le_one_of_neg (by linarith)]; linarith
  have hm : Near u 5 ((lev - a) / (b - a) * (x1 - x0))
      (rnd (rnd (rnd (lev - a) / rnd (b - a)) * rnd (x1 - x0))) :=
    ((((near_rnd h0 hu hr _).div hu (near_rnd h0 hu hr _)).trans hu (near_rnd h0 hu hr _)).mul hu
      (near_rnd h0 hu hr _)).trans hu (near_rnd h0 hu hr _)
  have ha := hm.abs_sub h0 (by push_cast; linarith)
  generalize rnd (rnd (rnd (lev - a) / rnd (b - a)) * rnd (x1 - x0)) = m at *
  generalize (lev - a) / (b - a) = t at *
  have hr2 := hr (m + x0)
  have hE : ((5 : ℕ) : K) * u / (1 - ((5 : ℕ) : K) * u) ≤ 21 / 4 * u + u / 25 := by
    push_cast
    rw [div_le_iff₀ (by linarith)]
    nlinarith
  have hD := abs_nonneg (x1 - x0)
  have htd : |t * (x1 - x0)| ≤ |x1 - x0| := by
    rw [abs_mul, abs_of_nonneg t0]; nlinarith
  have hmd : |m - t * (x1 - x0)| ≤ (21 / 4 * u + u / 25) * |x1 - x0| :=
    ha.trans (mul_le_mul hE htd (abs_nonneg _) (by linarith))
  have hxm : |x| ≤ max |x0| |x1| := by
    have : x = t * x1 + (1 - t) * x0 := by rw [e]; ring
    rw [this]
    calc |t * x1 + (1 - t) * x0| ≤ |t * x1| + |(1 - t) * x0| := abs_add_le _ _
      _ = t * |x1| + (1 - t) * |x0| := by
        rw [abs_mul, abs_mul, abs_of_nonneg t0, abs_of_nonneg (by linarith : (0 : K) ≤ 1 - t)]
      _ ≤ t * max |x0| |x1| + (1 - t) * max |x0| |x1| :=
        add_le_add (mul_le_mul_of_nonneg_left (le_max_right _ _) t0)
          (mul_le_mul_of_nonneg_left (le_max_left _ _) (by linarith))
      _ = _ := by ring
  have hsum : |m + x0| ≤ |x| + (21 / 4 * u + u / 25) * |x1 - x0| := by
    have : m + x0 = x + (m - t * (x1 - x0)) := by rw [e]; ring
    rw [this]
    exact (abs_add_le _ _).trans (by linarith)
  have hfin : |rnd (m + x0) - x| ≤ |rnd (m + x0) - (m + x0)| + |m - t * (x1 - x0)| := by
    have : rnd (m + x0) - x = (rnd (m + x0) - (m + x0)) + (m - t * (x1 - x0)) := by rw [e]; ring
    rw [this]; exact abs_add_le _ _
  have h7 : u * |m + x0| ≤ u * (max |x0| |x1| + (21 / 4 * u + u / 25) * |x1 - x0|) :=
    mul_le_mul_of_nonneg_left (hsum.trans (by linarith)) h0
  have h8 : u * ((21 / 4 * u + u / 25) * |x1 - x0|) ≤ 1 / 100 * ((21 / 4 * u + u / 25) * |x1 - x0|) :=
    mul_le_mul_of_nonneg_right h1 (by positivity)
  have h9 : 0 ≤ u * |x1 - x0| := mul_nonneg h0 hD
  nlinarith

/-- **C134** A vertex of a contour on an edge that crosses the level (one end above it, one not) is computed in
floating point up to `6u` times the extent of the edge and `u` times the size of the coordinates. -/
theorem C134_vertex {u : K} (h0 : 0 ≤ u) (h1 : u ≤ 1 / 100) {rnd : K → K} (hr : RoundsTo u rnd)
    {lev a b x0 x1 y0 y1 x y : K} (hc : a ≤ lev ∧ lev < b ∨ b ≤ lev ∧ lev < a)
    (hx : IsCrossing lev a b x0 x1 x) (hy : IsCrossing lev a b y0 y1 y) :
    ∃ x' y', interpolateR rnd lev (some a) (some b) x0 x1 y0 y1 = some (x', y') ∧
      |x' - x| ≤ 6 * u * |x1 - x0| + u * max |x0| |x1| ∧
      |y' - y| ≤ 6 * u * |y1 - y0| + u * max |y0| |y1| :=
  ⟨_, _, rfl, interp_coord h0 h1 hr hc hx, interp_coord h0 h1 hr hc hy⟩

/-- the hypotheses are met by doubles; the numbers 0.1, 0.2, 0.7 stand for arbitrary data -/
example : ∃ x' y', interpolateR (double : ℚ → ℚ) (1 / 2) (some (1 / 10)) (some (7 / 10)) 0 3 5 5 = some (x', y') ∧
    |x' - 2| ≤ 6 * (1 / 2) ^ 53 * |3 - 0| + (1 / 2) ^ 53 * max |0| |3| ∧
    |y' - 5| ≤ 6 * (1 / 2) ^ 53 * |5 - 5| + (1 / 2) ^ 53 * max |5| |5| :=
  C134_vertex (by norm_num) (by norm_num) double_roundsTo (.inl (by norm_num)) (by norm_num [IsCrossing])
    (by norm_num [IsCrossing])

theorem centre_close {u : K} (h0 : 0 ≤ u) (h1 : u ≤ 1 / 100) {rnd : K → K} (hr : RoundsTo u rnd) {M a b c d : K}
    (ha : |a| ≤ M) (hb : |b| ≤ M) (hc : |c| ≤ M) (hd : |d| ≤ M) :
    |rnd (rnd (rnd (rnd (a + b) + c) + d) / 4) - (a + b + c + d) / 4| ≤ 5 * u * M := by
  have hM : 0 ≤ M := (abs_nonneg a).trans ha
  have s1 := hr (a + b)
  have n1 : |a + b| ≤ 2 * M := (abs_add_le _ _).trans (by linarith)
  generalize rnd (a + b) = p at *
  have e1 : |p - (a + b)| ≤ 2 * (u * M) := s1.trans (by nlinarith)
  have s2 := hr (p + c)
  have uM : 0 ≤ u * M := mul_nonneg h0 hM
  have uuM : u * (u * M) ≤ 1 / 100 * (u * M) := mul_le_mul_of_nonneg_right h1 uM
  have n2 : |p + c| ≤ 3 * M + 2 * (u * M) := by
    have : p + c = (a + b) + c + (p - (a + b)) := by ring
    rw [this]
    have h := abs_add_le ((a + b) + c) (p - (a + b))
    have h' := abs_add_le (a + b) c
    linarith
  generalize rnd (p + c) = q at *
  have e2 : |q - (a + b + c)| ≤ 503 / 100 * (u * M) := by
    have : q - (a + b + c) = (q - (p + c)) + (p - (a + b)) := by ring
    rw [this]
    have h := abs_add_le (q - (p + c)) (p - (a + b))
    have := mul_le_mul_of_nonneg_left n2 h0
    nlinarith
  have s3 := hr (q + d)
  have n3 : |q + d| ≤ 4 * M + 503 / 100 * (u * M) := by
    have : q + d = (a + b) + c + d + (q - (a + b + c)) := by ring
    rw [this]
    have h := abs_add_le ((a + b) + c + d) (q - (a + b + c))
    have h' := abs_add_le (a + b + c) d
    have h'' := abs_add_le (a + b) c
    linarith
  generalize rnd (q + d) = r at *
  have e3 : |r - (a + b + c + d)| ≤ 91 / 10 * (u * M) := by
    have : r - (a + b + c + d) = (r - (q + d)) + (q - (a + b + c)) := by ring
    rw [this]
    have h := abs_add_le (r - (q + d)) (q - (a + b + c))
    have := mul_le_mul_of_nonneg_left n3 h0
    nlinarith
  have s4 := hr (r / 4)
  have n4 : |r / 4| ≤ M + 91 / 40 * (u * M) := by
    have : r / 4 = (a + b + c + d) / 4 + (r - (a + b + c + d)) / 4 := by ring
    rw [this]
    have h := abs_add_le ((a + b + c + d) / 4) ((r - (a + b + c + d)) / 4)
    rw [abs_div, abs_div, abs_of_pos (by norm_num : (0 : K) < 4)] at h
    have h' := abs_add_le (a + b + c) d
    have h'' := abs_add_le (a + b) c
    linarith
  have : rnd (r / 4) - (a + b + c + d) / 4 = (rnd (r / 4) - r / 4) + (r - (a + b + c + d)) / 4 := by ring
  rw [this]
  have h := abs_add_le (rnd (r / 4) - r / 4) ((r - (a + b + c + d)) / 4)
  rw [abs_div, abs_of_pos (by norm_num : (0 : K) < 4)] at h
  have := mul_le_mul_of_nonneg_left n4 h0
  nlinarith

/-- **C134** In a saddle cell with values of size at most `M` the tracer turns to the same side as with exact
arithmetic, unless the mean of the four values is within `5uM` of the level. -/
theorem C134_saddle {u : K} (h0 : 0 ≤ u) (h1 : u ≤ 1 / 100) {rnd : K → K} (hr : RoundsTo u rnd)
    {lev M a b c d : K} (ha : |a| ≤ M) (hb : |b| ≤ M) (hc : |c| ≤ M) (hd : |d| ≤ M)
    (hfar : 5 * u * M < |(a + b + c + d) / 4 - lev|) :
    centreHighR rnd lev (some a) (some b) (some c) (some d) = true ↔ lev < (a + b + c + d) / 4 := by
  have h := centre_close h0 h1 hr ha hb hc hd
  unfold centreHighR
  rw [decide_eq_true_eq]
  rw [abs_le] at h
  rcases lt_abs.1 hfar with hh | hh <;> constructor <;> intro h' <;> linarith

example : centreHighR (double : ℚ → ℚ) (1 / 2) (some 1) (some 0) (some 1) (some (1 / 10)) = true :=
  (C134_saddle (u := (1 / 2) ^ 53) (M := 1) (by norm_num) (by norm_num) double_roundsTo (by norm_num) (by norm_num)
    (by norm_num) (by norm_num [abs_of_pos]) (by norm_num [abs_of_pos])).2 (by norm_num)

end

/-- **C134** is false for saddle cells whose mean is very close to the level: with the corners 2⁵³, 1, 1, 2⁵³ and the
level 2⁵² the mean is above the level, but the mean computed with doubles is not. -/
theorem C134_refuted : ∃ (lev a b c d : ℚ), double lev = lev ∧ double a = a ∧ double b = b ∧ double c = c ∧ double d = d ∧
    lev < a ∧ b ≤ lev ∧ c ≤ lev ∧ lev < d ∧ lev < (a + b + c + d) / 4 ∧
    centreHighR double lev (some a) (some b) (some c) (some d) = false :=
  ⟨2 ^ 52, 2 ^ 53, 1, 1, 2 ^ 53, by decide +kernel⟩

/-! ### C135: Fréchet distance and similarity score -/

section
variable {u : ℝ}

/-- **C135** The Fréchet distance computed in floating point is within `4u` (relative) of the exact one, and it raises
the same exceptions. -/
theorem C135_distance (h0 : 0 ≤ u) (h1 : u ≤ 1 / 12) {rnd : ℝ → ℝ} (hr : RoundsTo u rnd) (limit : Nat)
    (A B : List (ℝ × ℝ)) :
    (∃ e, frdist limit eucl A B = .error e ∧ frdist limit (normR rnd) A B = .error e) ∨
    ∃ d d', frdist limit eucl A B = .ok d ∧ frdist limit (normR rnd) A B = .ok d' ∧ |d' - d| ≤ 4 * u * d := by
  rcases near_frdist h0 (by linarith) limit eucl_nonneg (near_normR h0 (by linarith) hr) A B with h | ⟨v, w, h2, h3, h4, h5⟩
  · exact .inl h
  · refine .inr ⟨v, w, h2, h3, ?_⟩
    have := h5.abs_sub h0 (by push_cast; linarith)
    rw [abs_of_nonneg h4] at this
    refine this.trans (mul_le_mul_of_nonneg_right ?_ h4)
    push_cast
    rw [div_le_iff₀ (by linarith)]
    nlinarith

theorem score_close (h0 : 0 ≤ u) (h1 : u < 1) {rnd : ℝ → ℝ} (hr : RoundsTo u rnd) {k : Nat} (hk : k * u < 1) {x y : ℝ}
    (hx : 0 ≤ x) (h : Near u k x y) :
    |max (rnd (1 - y)) 0 - max (1 - x) 0| ≤ k * u / (1 - k * u) + u := by
  have hy := h.nonneg h1 hx
  have hE := h.abs_sub h0 hk
  have hd : 0 < 1 - k * u := by linarith
  have hku : 0 ≤ (k : ℝ) * u := by positivity
  have hE0 : 0 ≤ k * u / (1 - k * u) := div_nonneg hku hd.le
  rw [abs_of_nonneg hx] at hE
  have b1 : |max (rnd (1 - y)) 0 - max (1 - y) 0| ≤ u := by
    have h2 := hr (1 - y)
    rcases le_total 0 (1 - y) with h3 | h3
    · rw [abs_of_nonneg h3] at h2
      refine (abs_max_sub_max_le_abs _ _ _).trans (h2.trans ?_)
      nlinarith
    · rw [abs_of_nonpos h3, abs_le] at h2
      rw [max_eq_right h3, max_eq_right (by nlinarith)]
      simpa using h0
  have b2 : |max (1 - y) 0 - max (1 - x) 0| ≤ k * u / (1 - k * u) := by
    rcases le_total x 1 with h3 | h3
    · refine (abs_max_sub_max_le_abs _ _ _).trans ?_
      rw [show 1 - y - (1 - x) = -(y - x) by ring, abs_neg]
      refine hE.trans ?_
      nlinarith
    · rw [max_eq_right (by linarith : 1 - x ≤ 0), sub_zero, abs_of_nonneg (le_max_right _ _)]
      apply max_le _ hE0
      have h4 := (h.bounds h1 hx).1
      have h5 : 1 - k * u ≤ (1 - u) ^ k := by
        have := one_add_mul_le_pow (a := -u) (by linarith) k
        rw [show (1 + -u) = 1 - u by ring] at this
        linarith
      have h6 : 1 - k * u ≤ y := by
        have : (1 - u) ^ k ≤ x * (1 - u) ^ k := by
          have := pow_nonneg (by linarith : 0 ≤ 1 - u) k
          nlinarith
        linarith
      have h7 : k * u ≤ k * u / (1 - k * u) := by
        rw [le_div_iff₀ hd]; nlinarith
      linarith
  calc _ = |(max (rnd (1 - y)) 0 - max (1 - y) 0) + (max (1 - y) 0 - max (1 - x) 0)| := by ring_nf
    _ ≤ _ := (abs_add_le _ _).trans (by linarith)

theorem round4_close (x : ℝ) : |round4 x - x| ≤ 1 / 20000 := by
  have := roundEven_close (x * 10000)
  unfold round4
  rw [abs_le] at this ⊢
  constructor
  · rw [neg_le_sub_iff_le_add, ← sub_le_iff_le_add, le_div_iff₀ (by norm_num)]; linarith [this.1]
  · rw [sub_le_iff_le_add, div_le_iff₀ (by norm_num)]; linarith [this.2]

theorem round4_step {x y : ℝ} (h : |x - y| < 1 / 10000) : |round4 x - round4 y| ≤ 1 / 10000 := by
  have h1 := roundEven_close (x * 10000)
  have h2 := roundEven_close (y * 10000)
  have hint : |roundEven (x * 10000) - roundEven (y * 10000)| < 2 := by
    have : |((roundEven (x * 10000) - roundEven (y * 10000) : ℤ) : ℝ)| < 2 := by
      push_cast
      rw [abs_lt] at h ⊢
      rw [abs_le] at h1 h2
      constructor <;> linarith [h.1, h.2, h1.1, h1.2, h2.1, h2.2]
    exact_mod_cast this
  have hle : |roundEven (x * 10000) - roundEven (y * 10000)| ≤ 1 := by omega
  have hle' : |(roundEven (x * 10000) : ℝ) - roundEven (y * 10000)| ≤ 1 := by exact_mod_cast hle
  unfold round4
  rw [← sub_div, abs_div, abs_of_pos (by norm_num : (0 : ℝ) < 10000)]
  exact div_le_div_of_nonneg_right hle' (by norm_num)

/-- The ratio under the score. -/
theorem near_ratio (h0 : 0 ≤ u) (h1 : 4 * u ≤ 1) {rnd : ℝ → ℝ} (hr : RoundsTo u rnd) {hyp : ℝ → ℝ → ℝ}
    (hh : LengthTo u hyp) (A B : List (ℝ × ℝ)) {d d' : ℝ} (hd : Near u 3 d d') :
    Near u (max A.length B.length + 8) (Real.sqrt (arcLength A * arcLength B) / Real.sqrt 2)
      (rnd (rnd (Real.sqrt (rnd (arcLengthR rnd hyp A * arcLengthR rnd hyp B))) / rnd (Real.sqrt 2))) ∧
    Near u (max A.length B.length + 12) (d / (Real.sqrt (arcLength A * arcLength B) / Real.sqrt 2))
      (rnd (d' / rnd (rnd (Real.sqrt (rnd (arcLengthR rnd hyp A * arcLengthR rnd hyp B))) / rnd (Real.sqrt 2)))) := by
  have hu : u < 1 := by linarith
  have hA := (near_arcLengthR h0 h1 hr hh A).mono h0 hu (l := 4 + max A.length B.length) (by omega)
  have hB := (near_arcLengthR h0 h1 hr hh B).mono h0 hu (l := 4 + max A.length B.length) (by omega)
  have hp := (hA.mul hu hB).trans hu (near_rnd h0 hu hr _)
  have hs := (hp.sqrt h0 hu (l := max A.length B.length + 5) (by omega)
    (mul_nonneg (arcLength_nonneg A) (arcLength_nonneg B))).trans hu (near_rnd h0 hu hr _)
  have hg := (hs.div hu (near_rnd h0 hu hr (Real.sqrt 2))).trans hu (near_rnd h0 hu hr _)
  have hg' := hg.mono h0 hu (l := max A.length B.length + 8) (by omega)
  exact ⟨hg', ((hd.div hu hg').trans hu (near_rnd h0 hu hr _)).mono h0 hu (by omega)⟩

/-- **C135** The score computed in floating point: the same exceptions as with exact arithmetic, undefined (NaN) for
the same curves, and otherwise at most one unit in the fourth decimal away from the exact score; it lies between 0 and
1. `n` points at most per curve are admitted with `(n + 13) u ≤ 1/40000`: for doubles more than 10¹¹ points. -/
theorem C135_score (h0 : 0 ≤ u) {rnd : ℝ → ℝ} (hr : RoundsTo u rnd) {hyp : ℝ → ℝ → ℝ} (hh : LengthTo u hyp)
    (limit : Nat) (A B : List (ℝ × ℝ)) (hn : ((max A.length B.length + 13 : ℕ) : ℝ) * u ≤ 1 / 40000) :
    match similarity limit A B, similarityR rnd hyp limit A B with
    | .error e, .error e' => e = e'
    | .ok none, .ok none => True
    | .ok (some s), .ok (some s') => |s' - s| ≤ 1 / 10000 ∧ 0 ≤ s' ∧ s' ≤ 1
    | _, _ => False := by
  have hu13 : 13 * u ≤ 1 / 40000 := by
    push_cast at hn
    have : 0 ≤ (max (A.length : ℝ) B.length) * u := mul_nonneg (le_max_of_le_left (Nat.cast_nonneg _)) h0
    linarith
  have h4 : 4 * u ≤ 1 := by linarith
  have hu : u < 1 := by linarith
  unfold similarity similarityR
  rcases near_frdist h0 hu limit eucl_nonneg (near_normR h0 hu hr) A B with ⟨e, e1, e2⟩ | ⟨v, w, e1, e2, hv, hn3⟩
  · rw [e1, e2]; rfl
  · rw [e1, e2]
    obtain ⟨hg, hq⟩ := near_ratio h0 h4 hr hh A B hn3
    simp only [bind, Except.bind, pure, Except.pure]
    by_cases hz : Real.sqrt (arcLength A * arcLength B) / Real.sqrt 2 = 0
    · rw [if_pos hz, if_pos ((hg.zero_iff hu).2 hz)]
      by_cases hz2 : v = 0
      · rw [if_pos hz2, if_pos ((hn3.zero_iff hu).2 hz2)]
        trivial
      · rw [if_neg hz2, if_neg (fun h => hz2 ((hn3.zero_iff hu).1 h))]
        obtain ⟨r1, r2⟩ := round4_range (x := 0) le_rfl zero_le_one
        exact ⟨by simp, r1, r2⟩
    · rw [if_neg hz, if_neg (fun h => hz ((hg.zero_iff hu).1 h))]
      have hx : 0 ≤ v / (Real.sqrt (arcLength A * arcLength B) / Real.sqrt 2) := by positivity
      have hy := hq.nonneg hu hx
      generalize v / (Real.sqrt (arcLength A * arcLength B) / Real.sqrt 2) = x at *
      generalize rnd (w / _) = y at *
      have hku : (((max A.length B.length + 12 : ℕ) : ℝ)) * u + u ≤ 1 / 40000 := by
        push_cast at hn ⊢
        linarith
      generalize hk : max A.length B.length + 12 = k at *
      have hk0 : 0 ≤ (k : ℝ) * u := by positivity
      have hc := score_close h0 hu hr (k := k) (by linarith) hx hq
      have hE : (k : ℝ) * u / (1 - k * u) + u < 1 / 10000 := by
        have : (k : ℝ) * u / (1 - k * u) ≤ 2 * (k * u) := by
          rw [div_le_iff₀ (by linarith)]; nlinarith
        linarith
      refine ⟨round4_step (hc.trans_lt hE), ?_⟩
      have hm : max (rnd (1 - y)) 0 ≤ 1 + u := by
        apply max_le _ (by linarith)
        have h2 := hr (1 - y)
        rw [abs_le] at h2
        rcases le_total 0 (1 - y) with h3 | h3
        · rw [abs_of_nonneg h3] at h2; nlinarith
        · rw [abs_of_nonpos h3] at h2; nlinarith
      have hlo := le_roundEven (x := max (rnd (1 - y)) 0 * 10000) (n := 0) (by
        push_cast; exact mul_nonneg (le_max_right _ _) (by norm_num))
      have hhi : roundEven (max (rnd (1 - y)) 0 * 10000) ≤ 10000 := by
        have h5 := roundEven_close (max (rnd (1 - y)) 0 * 10000)
        rw [abs_le] at h5
        have : (roundEven (max (rnd (1 - y)) 0 * 10000) : ℝ) < 10001 := by linarith [h5.2]
        have : roundEven (max (rnd (1 - y)) 0 * 10000) < 10001 := by exact_mod_cast this
        omega
      unfold round4
      constructor
      · have : (0 : ℝ) ≤ roundEven (max (rnd (1 - y)) 0 * 10000) := by exact_mod_cast hlo
        positivity
      · rw [div_le_one (by norm_num)]; exact_mod_cast hhi

end

/-- doubles and a correctly rounded length satisfy the hypotheses for any two curves of at most a million points -/
example (limit : Nat) (A B : List (ℝ × ℝ)) (hA : A.length ≤ 1000000) (hB : B.length ≤ 1000000) :
    match similarity limit A B, similarityR double (fun a b => double (Real.sqrt (a ^ 2 + b ^ 2))) limit A B with
    | .error e, .error e' => e = e'
    | .ok none, .ok none => True
    | .ok (some s), .ok (some s') => |s' - s| ≤ 1 / 10000 ∧ 0 ≤ s' ∧ s' ≤ 1
    | _, _ => False := by
  apply C135_score (u := (1 / 2) ^ 53) (by norm_num) double_roundsTo
  · intro a b
    have h := double_roundsTo (K := ℝ) (Real.sqrt (a ^ 2 + b ^ 2))
    rw [abs_of_nonneg (Real.sqrt_nonneg _)] at h
    refine h.trans (mul_le_mul_of_nonneg_right (by norm_num) (Real.sqrt_nonneg _))
  · have : (((max A.length B.length + 13 : ℕ) : ℝ)) ≤ 1000013 := by
      have : max A.length B.length + 13 ≤ 1000013 := by omega
      exact_mod_cast this
    calc _ ≤ (1000013 : ℝ) * (1 / 2) ^ 53 := mul_le_mul_of_nonneg_right this (by norm_num)
      _ ≤ _ := by norm_num

end Trackeddy
