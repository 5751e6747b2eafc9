import Verif.Model.Rounding
import Verif.Spec.Rounding
import Verif.Proofs.Frechet
import Verif.Props.Similarity
import Mathlib.Tactic.Linarith
import Mathlib.Tactic.Ring
import Mathlib.Tactic.FieldSimp
import Mathlib.Tactic.Positivity
import Mathlib.Algebra.Order.Ring.Pow

/-! Propagation of relative errors. -/
namespace Trackeddy

open Frechet Cntr Spec

section
variable {K : Type} [Field K] [LinearOrder K] [IsStrictOrderedRing K]

/-- `y` is `x` up to `k` rounding errors -/
def Near (u : K) (k : Nat) (x y : K) : Prop := ∃ f, (1 - u) ^ k ≤ f ∧ f * (1 - u) ^ k ≤ 1 ∧ y = x * f

variable {u : K}

theorem near_refl (h0 : 0 ≤ u) (h1 : u < 1) (k : Nat) (x : K) : Near u k x x :=
  ⟨1, pow_le_one₀ (by linarith) (by linarith), by
    rw [one_mul]; exact pow_le_one₀ (by linarith) (by linarith), by ring⟩

theorem near_rnd (h0 : 0 ≤ u) (h1 : u < 1) {rnd : K → K} (hr : RoundsTo u rnd) (x : K) : Near u 1 x (rnd x) := by
  have h := hr x
  by_cases hx : x = 0
  · subst hx
    have : rnd 0 = 0 := by simpa using h
    rw [this]; exact near_refl h0 h1 1 0
  · have hp : 0 < |x| := abs_pos.2 hx
    have e : |rnd x / x - 1| ≤ u := by
      rw [show rnd x / x - 1 = (rnd x - x) / x by field_simp, abs_div, div_le_iff₀ hp]; exact h
    rw [abs_le] at e
    refine ⟨rnd x / x, by rw [pow_one]; linarith [e.1], ?_, by field_simp⟩
    rw [pow_one]
    have : rnd x / x ≤ 1 + u := by linarith [e.2]
    nlinarith [mul_le_mul_of_nonneg_right this (by linarith : (0 : K) ≤ 1 - u)]

theorem Near.mono (h0 : 0 ≤ u) (h1 : u < 1) {k l : Nat} (hkl : k ≤ l) {x y : K} (h : Near u k x y) :
    Near u l x y := by
  obtain ⟨f, a, b, rfl⟩ := h
  have hp : (1 - u) ^ l ≤ (1 - u) ^ k := pow_le_pow_of_le_one (by linarith) (by linarith) hkl
  have hk : 0 < (1 - u) ^ k := pow_pos (by linarith) _
  exact ⟨f, hp.trans a, (mul_le_mul_of_nonneg_left hp (hk.le.trans a)).trans b, rfl⟩

theorem Near.factor_pos (h1 : u < 1) {k : Nat} {f : K} (a : (1 - u) ^ k ≤ f) : 0 < f :=
  lt_of_lt_of_le (pow_pos (by linarith) _) a

theorem near_fmul (h1 : u < 1) {k l : Nat} {f g : K} (a : (1 - u) ^ k ≤ f) (b : f * (1 - u) ^ k ≤ 1)
    (c : (1 - u) ^ l ≤ g) (d : g * (1 - u) ^ l ≤ 1) :
    (1 - u) ^ (k + l) ≤ f * g ∧ f * g * (1 - u) ^ (k + l) ≤ 1 := by
  have hk : 0 < (1 - u) ^ k := pow_pos (by linarith) _
  have hl : 0 < (1 - u) ^ l := pow_pos (by linarith) _
  rw [pow_add]
  constructor
  · exact mul_le_mul a c hl.le (hk.le.trans a)
  · calc f * g * ((1 - u) ^ k * (1 - u) ^ l) = (f * (1 - u) ^ k) * (g * (1 - u) ^ l) := by ring
      _ ≤ 1 * 1 := mul_le_mul b d (mul_nonneg (hl.le.trans c) hl.le) zero_le_one
      _ = 1 := by ring

theorem Near.trans (h1 : u < 1) {k l : Nat} {x y z : K} (h : Near u k x y) (h' : Near u l y z) :
    Near u (k + l) x z := by
  obtain ⟨f, a, b, rfl⟩ := h
  obtain ⟨g, c, d, rfl⟩ := h'
  obtain ⟨e1, e2⟩ := near_fmul h1 a b c d
  exact ⟨f * g, e1, e2, by ring⟩

theorem Near.mul (h1 : u < 1) {k l : Nat} {x y x' y' : K} (h : Near u k x y) (h' : Near u l x' y') :
    Near u (k + l) (x * x') (y * y') := by
  obtain ⟨f, a, b, rfl⟩ := h
  obtain ⟨g, c, d, rfl⟩ := h'
  obtain ⟨e1, e2⟩ := near_fmul h1 a b c d
  exact ⟨f * g, e1, e2, by ring⟩

theorem Near.div (h1 : u < 1) {k l : Nat} {x y x' y' : K} (h : Near u k x y) (h' : Near u l x' y') :
    Near u (k + l) (x / x') (y / y') := by
  obtain ⟨f, a, b, rfl⟩ := h
  obtain ⟨g, c, d, rfl⟩ := h'
  have hg := Near.factor_pos h1 c
  obtain ⟨e1, e2⟩ := near_fmul h1 a b (f := f) (g := g⁻¹) (l := l)
    (by rw [le_inv_comm₀ (pow_pos (by linarith) _) hg, le_inv_comm₀ hg (pow_pos (by linarith) _)]
        rw [le_inv_comm₀ (pow_pos (by linarith) _) hg, ← one_div, le_div_iff₀ (pow_pos (by linarith) _)]; exact d)
    (by rw [inv_mul_le_iff₀ hg]; linarith)
  refine ⟨f * g⁻¹, e1, e2, ?_⟩
  rw [div_eq_mul_inv, div_eq_mul_inv, mul_inv]; ring

theorem Near.bounds (h1 : u < 1) {k : Nat} {x y : K} (hx : 0 ≤ x) (h : Near u k x y) :
    x * (1 - u) ^ k ≤ y ∧ y * (1 - u) ^ k ≤ x := by
  obtain ⟨f, a, b, rfl⟩ := h
  refine ⟨mul_le_mul_of_nonneg_left a hx, ?_⟩
  have := mul_le_mul_of_nonneg_left b hx
  linarith [this, mul_assoc x f ((1 - u) ^ k)]

theorem Near.nonneg (h1 : u < 1) {k : Nat} {x y : K} (hx : 0 ≤ x) (h : Near u k x y) : 0 ≤ y := by
  obtain ⟨f, a, b, rfl⟩ := h
  exact mul_nonneg hx (Near.factor_pos h1 a).le

theorem Near.zero_iff (h1 : u < 1) {k : Nat} {x y : K} (h : Near u k x y) : y = 0 ↔ x = 0 := by
  obtain ⟨f, a, b, rfl⟩ := h
  have := (Near.factor_pos h1 a).ne'
  simp [this]

/-- the converse of `Near.bounds` -/
theorem near_of_bounds (h0 : 0 ≤ u) (h1 : u < 1) {k : Nat} {x y : K} (hx : 0 ≤ x) (ha : x * (1 - u) ^ k ≤ y)
    (hb : y * (1 - u) ^ k ≤ x) : Near u k x y := by
  have hp : 0 < (1 - u) ^ k := pow_pos (by linarith) _
  rcases hx.eq_or_lt with h | h
  · subst h
    have h2 : y = 0 := le_antisymm (by
      by_contra hc
      push Not at hc
      have := mul_pos hc hp
      linarith) (by simpa using ha)
    subst h2; exact near_refl h0 h1 k 0
  · refine ⟨y / x, by rw [le_div_iff₀ h]; linarith, ?_, by field_simp⟩
    rw [div_mul_eq_mul_div, div_le_one h]; exact hb

theorem Near.add (h0 : 0 ≤ u) (h1 : u < 1) {k : Nat} {x y x' y' : K} (hx : 0 ≤ x) (hx' : 0 ≤ x')
    (h : Near u k x y) (h' : Near u k x' y') : Near u k (x + x') (y + y') := by
  obtain ⟨a, b⟩ := h.bounds h1 hx
  obtain ⟨c, d⟩ := h'.bounds h1 hx'
  exact near_of_bounds h0 h1 (add_nonneg hx hx') (by linarith) (by linarith)

/-- the absolute error -/
theorem Near.abs_sub (h0 : 0 ≤ u) {k : Nat} (hk : k * u < 1) {x y : K} (h : Near u k x y) :
    |y - x| ≤ k * u / (1 - k * u) * |x| := by
  obtain ⟨f, a, b, rfl⟩ := h
  have hd : 0 < 1 - k * u := by linarith
  by_cases k0 : k = 0
  · subst k0
    have : f = 1 := le_antisymm (by simpa using b) (by simpa using a)
    simp [this]
  have hu : u < 1 := by
    have : (1 : K) ≤ k := by exact_mod_cast Nat.one_le_iff_ne_zero.2 k0
    nlinarith
  have hbern : 1 - k * u ≤ (1 - u) ^ k := by
    have := one_add_mul_le_pow (a := -u) (by linarith) k
    have e : (1 + -u) = 1 - u := by ring
    rw [e] at this
    linarith
  have hf := Near.factor_pos hu a
  rw [show x * f - x = (f - 1) * x by ring, abs_mul]
  apply mul_le_mul_of_nonneg_right _ (abs_nonneg x)
  rw [abs_le]
  constructor
  · rw [neg_le, neg_sub, le_div_iff₀ hd]
    have h3 : 1 - f ≤ k * u := by linarith
    have h4 : 0 ≤ (k : K) * u := by positivity
    nlinarith
  · rw [le_div_iff₀ hd]
    have h3 : f * (1 - k * u) ≤ 1 := (mul_le_mul_of_nonneg_left hbern hf.le).trans b
    linarith

/-! ### nearest doubles -/

theorem nearestEven_close [FloorRing K] (x : K) : |(nearestEven x : K) - x| ≤ 1 / 2 := by
  have h1 := Int.fract_nonneg x
  have h2 := Int.fract_lt_one x
  have h3 : Int.fract x = x - ⌊x⌋ := rfl
  unfold nearestEven
  split_ifs <;> rw [abs_le] <;> push_cast <;> constructor <;> linarith

theorem double_roundsTo [FloorRing K] : RoundsTo ((1 / 2) ^ 53 : K) double := by
  intro x
  by_cases hx : x = 0
  · subst hx; simp [double, nearestEven]
  have hp : 0 < |x| := abs_pos.2 hx
  have hl : (2 : K) ^ (Int.log 2 |x|) ≤ |x| := by
    have := Int.zpow_log_le_self (b := 2) (r := |x|) (by norm_num) hp
    exact_mod_cast this
  have hq : (0 : K) < (2 : K) ^ (Int.log 2 |x| - 52) := zpow_pos (by norm_num) _
  have he : (2 : K) ^ (Int.log 2 |x| - 52) = (2 : K) ^ (Int.log 2 |x|) * (1 / 2) ^ 52 := by
    rw [zpow_sub₀ (by norm_num), div_eq_mul_inv]
    congr 1
    norm_num
  unfold double
  generalize (2 : K) ^ (Int.log 2 |x| - 52) = q at *
  have hc := nearestEven_close (x / q)
  have : (nearestEven (x / q) : K) * q - x = ((nearestEven (x / q) : K) - x / q) * q := by
    field_simp
  rw [this, abs_mul, abs_of_pos hq]
  calc _ ≤ 1 / 2 * q := mul_le_mul_of_nonneg_right hc hq.le
    _ = (2 : K) ^ (Int.log 2 |x|) * (1 / 2) ^ 53 := by rw [he]; ring
    _ ≤ |x| * (1 / 2) ^ 53 := mul_le_mul_of_nonneg_right hl (by positivity)
    _ = _ := by ring

/-! ### the Fréchet distance -/

theorem val_mono {d e : Nat → Nat → K} (h : ∀ a b, d a b ≤ e a b) (i j : Nat) : val d i j ≤ val e i j := by
  rw [← reach_val]
  have : Reach e (val e i j) i j := (reach_val e i j _).2 le_rfl
  revert this
  generalize val e i j = w
  intro this
  induction this with
  | base h0 => exact .base ((h _ _).trans h0)
  | right _ h0 ih => exact .right ih ((h _ _).trans h0)
  | up _ h0 ih => exact .up ih ((h _ _).trans h0)
  | diag _ h0 ih => exact .diag ih ((h _ _).trans h0)

theorem val_mul {c : K} (hc : 0 ≤ c) (d : Nat → Nat → K) (i j : Nat) :
    val (fun a b => d a b * c) i j = val d i j * c := by
  fun_induction val d i j with
  | case1 => simp only [val]
  | case2 i ih => simp only [val]; rw [ih, max_mul_of_nonneg _ _ hc]
  | case3 j ih => simp only [val]; rw [ih, max_mul_of_nonneg _ _ hc]
  | case4 i j a b c' =>
    simp only [val]
    rw [a, b, c', max_mul_of_nonneg _ _ hc, min_mul_of_nonneg _ _ hc, min_mul_of_nonneg _ _ hc]

theorem val_nonneg {d : Nat → Nat → K} (h : ∀ a b, 0 ≤ d a b) (i j : Nat) : 0 ≤ val d i j :=
  (h i j).trans ((reach_val d i j _).2 le_rfl).link

theorem near_val (h0 : 0 ≤ u) (h1 : u < 1) {k : Nat} {d e : Nat → Nat → K} (hd : ∀ a b, 0 ≤ d a b)
    (h : ∀ a b, Near u k (d a b) (e a b)) (i j : Nat) : Near u k (val d i j) (val e i j) := by
  have hp : 0 ≤ (1 - u) ^ k := pow_nonneg (by linarith) _
  apply near_of_bounds h0 h1 (val_nonneg hd i j)
  · rw [← val_mul hp]; exact val_mono (fun a b => ((h a b).bounds h1 (hd a b)).1) i j
  · rw [← val_mul hp]; exact val_mono (fun a b => ((h a b).bounds h1 (hd a b)).2) i j

/-- rounding errors of the distances carry over to `frdist` unchanged; it raises the same exceptions -/
theorem near_frdist {P : Type*} (h0 : 0 ≤ u) (h1 : u < 1) {k : Nat} (limit : Nat) {d e : P → P → K}
    (hd : ∀ a b, 0 ≤ d a b) (h : ∀ a b, Near u k (d a b) (e a b)) (A B : List P) :
    (∃ x, frdist limit d A B = .error x ∧ frdist limit e A B = .error x) ∨
    ∃ v w, frdist limit d A B = .ok v ∧ frdist limit e A B = .ok w ∧ 0 ≤ v ∧ Near u k v w := by
  have ha : ∀ (p q : List P) a b, 0 ≤ distAt d p q a b := by
    intro p q a b; unfold distAt; split
    · exact hd _ _
    · exact le_rfl
  have hb : ∀ (p q : List P) a b, Near u k (distAt d p q a b) (distAt e p q a b) := by
    intro p q a b; unfold distAt; split
    · exact h _ _
    · exact near_refl h0 h1 _ _
  rw [frdist_eq_val, frdist_eq_val]
  generalize subsample 0 (if A.length ≥ B.length then A else B)
    (if A.length ≥ B.length then B else A) = s
  by_cases c1 : s.1 = [] ∨ s.2 = []
  · simp only [c1, if_true]
    exact .inl ⟨_, rfl, rfl⟩
  by_cases c2 : (s.1.length - 1) + (s.2.length - 1) < limit
  · simp only [c1, c2, if_true, if_false]
    exact .inr ⟨_, _, rfl, rfl, val_nonneg (ha _ _) _ _, near_val h0 h1 (ha _ _) (hb _ _) _ _⟩
  · simp only [c1, c2, if_false]
    exact .inl ⟨_, rfl, rfl⟩

end

/-! ### lengths and scores -/

section
variable {u : ℝ}

theorem Near.sqrt (h0 : 0 ≤ u) (h1 : u < 1) {k l : Nat} (hkl : k ≤ 2 * l) {x y : ℝ} (hx : 0 ≤ x)
    (h : Near u k x y) : Near u l (Real.sqrt x) (Real.sqrt y) := by
  obtain ⟨f, a, b, rfl⟩ := h.mono h0 h1 hkl
  have hp : 0 ≤ (1 - u) ^ l := pow_nonneg (by linarith) _
  have e : (1 - u) ^ (2 * l) = ((1 - u) ^ l) ^ 2 := by rw [← pow_mul, mul_comm]
  have hf := Near.factor_pos h1 a
  refine ⟨Real.sqrt f, ?_, ?_, Real.sqrt_mul hx f⟩
  · rw [e] at a; exact Real.le_sqrt_of_sq_le a
  · rw [e] at b
    rw [← Real.sqrt_sq hp, ← Real.sqrt_mul hf.le]
    exact (Real.sqrt_le_sqrt b).trans_eq Real.sqrt_one

theorem near_normR (h0 : 0 ≤ u) (h1 : u < 1) {rnd : ℝ → ℝ} (hr : RoundsTo u rnd) (p q : ℝ × ℝ) :
    Near u 3 (eucl p q) (normR rnd p q) := by
  have sq : ∀ a, Near u 3 (a ^ 2) (rnd (rnd a * rnd a)) := fun a => by
    have h := near_rnd h0 h1 hr a
    have := (h.mul h1 h).trans h1 (near_rnd h0 h1 hr _)
    rwa [← pow_two] at this
  have h4 := ((sq (p.1 - q.1)).add h0 h1 (sq_nonneg _) (sq_nonneg _) (sq (p.2 - q.2))).trans h1
    (near_rnd h0 h1 hr _)
  exact ((h4.sqrt h0 h1 (l := 2) (by norm_num) (by positivity)).trans h1 (near_rnd h0 h1 hr _))

theorem near_mathDistR (h0 : 0 ≤ u) (h1 : 4 * u ≤ 1) {rnd : ℝ → ℝ} (hr : RoundsTo u rnd) {hyp : ℝ → ℝ → ℝ}
    (hh : LengthTo u hyp) (p q : ℝ × ℝ) : Near u 4 (eucl p q) (mathDistR rnd hyp p q) := by
  have hu : u < 1 := by linarith
  have sq : ∀ a, Near u 2 (a ^ 2) (rnd a ^ 2) := fun a => by
    have h := near_rnd h0 hu hr a
    have := h.mul hu h
    rwa [← pow_two, ← pow_two] at this
  have h4 := ((sq (p.1 - q.1)).add h0 hu (sq_nonneg _) (sq_nonneg _) (sq (p.2 - q.2))).sqrt h0 hu (l := 1)
    (by norm_num) (by positivity)
  have h5 := hh (rnd (p.1 - q.1)) (rnd (p.2 - q.2))
  have : Near u 3 (Real.sqrt (rnd (p.1 - q.1) ^ 2 + rnd (p.2 - q.2) ^ 2)) (mathDistR rnd hyp p q) := by
    unfold mathDistR
    generalize hyp _ _ = v at *
    have hs := Real.sqrt_nonneg (rnd (p.1 - q.1) ^ 2 + rnd (p.2 - q.2) ^ 2)
    generalize Real.sqrt (rnd (p.1 - q.1) ^ 2 + rnd (p.2 - q.2) ^ 2) = w at *
    rw [abs_le] at h5
    apply near_of_bounds h0 hu hs
    · have : (1 - u) ^ 3 ≤ 1 - 2 * u := by
        have e : (1 - u) ^ 3 = 1 - 2 * u - u * (1 - 3 * u + u ^ 2) := by ring
        have : 0 ≤ u * (1 - 3 * u + u ^ 2) := mul_nonneg h0 (by nlinarith)
        linarith
      nlinarith [mul_le_mul_of_nonneg_left this hs]
    · have h6 : v ≤ w * (1 + 2 * u) := by linarith
      have hp : 0 ≤ (1 - u) ^ 3 := pow_nonneg (by linarith) _
      have : (1 + 2 * u) * (1 - u) ^ 3 ≤ 1 := by
        have e : (1 + 2 * u) * (1 - u) ^ 3 = 1 - u - u ^ 2 * (3 - 5 * u + 2 * u ^ 2) := by ring
        rw [e]
        have : 0 ≤ u ^ 2 * (3 - 5 * u + 2 * u ^ 2) := mul_nonneg (sq_nonneg _) (by nlinarith)
        linarith
      nlinarith [mul_le_mul_of_nonneg_right h6 hp, mul_le_mul_of_nonneg_left this hs]
  exact h4.trans hu this

theorem near_arcLoopR (h0 : 0 ≤ u) (h1 : 4 * u ≤ 1) {rnd : ℝ → ℝ} (hr : RoundsTo u rnd) {hyp : ℝ → ℝ → ℝ}
    (hh : LengthTo u hyp) : ∀ (c : List (ℝ × ℝ)) (k : Nat) (a b : ℝ), 4 ≤ k → 0 ≤ a → Near u k a b →
      Near u (k + c.length) (arcLoop a c) (arcLoopR rnd hyp b c) := by
  have hu : u < 1 := by linarith
  intro c
  induction c with
  | nil => intro k a b _ _ h; exact h
  | cons p l ih =>
    intro k a b hk ha h
    cases l with
    | nil => exact h.mono h0 hu (by simp)
    | cons q l =>
      have := ih (k + 1) (a + eucl p q) (rnd (b + mathDistR rnd hyp p q)) (by omega)
        (add_nonneg ha (eucl_nonneg _ _))
        ((h.add h0 hu ha (eucl_nonneg _ _) ((near_mathDistR h0 h1 hr hh p q).mono h0 hu hk)).trans hu
          (near_rnd h0 hu hr _))
      have e : k + 1 + (q :: l).length = k + (p :: q :: l).length := by simp; omega
      rw [e] at this
      exact this

theorem near_arcLengthR (h0 : 0 ≤ u) (h1 : 4 * u ≤ 1) {rnd : ℝ → ℝ} (hr : RoundsTo u rnd) {hyp : ℝ → ℝ → ℝ}
    (hh : LengthTo u hyp) (c : List (ℝ × ℝ)) : Near u (4 + c.length) (arcLength c) (arcLengthR rnd hyp c) :=
  near_arcLoopR h0 h1 hr hh c 4 0 0 le_rfl le_rfl (near_refl h0 (by linarith) _ _)

end

end Trackeddy
