import Verif.Model.Gauss

/-!
Gaussian and its fit: C35 (shape), C36 (tilt convention), C37 (bounds), C38 (residual).
-/
namespace Trackeddy

/-! ### C35 -/

/-- the exponent in the coordinates of the axes -/
theorem gaussian_axes (x y amp xo yo sx sy θ : ℝ) :
    gaussian x y amp xo yo sx sy θ = amp * Real.exp (-(
      ((x - xo) * Real.cos θ + (y - yo) * Real.sin θ) ^ 2 / (2 * sx ^ 2) +
      (-(x - xo) * Real.sin θ + (y - yo) * Real.cos θ) ^ 2 / (2 * sy ^ 2))) := by
  unfold gaussian
  simp only [Real.sin_two_mul]
  congr 3
  rw [show (4:ℝ) * sx ^ 2 = 2 * (2 * sx ^ 2) by ring, show (4:ℝ) * sy ^ 2 = 2 * (2 * sy ^ 2) by ring]
  simp only [div_eq_mul_inv, mul_inv]
  ring

/-- C35: the amplitude is attained at the centre and only there. -/
theorem C35_centre (x y amp xo yo sx sy θ : ℝ) (hx : sx ≠ 0) (hy : sy ≠ 0) (ha : amp ≠ 0) :
    gaussian x y amp xo yo sx sy θ = amp ↔ x = xo ∧ y = yo := by
  rw [gaussian_axes]
  constructor
  · intro h
    have h1 : Real.exp (-(((x - xo) * Real.cos θ + (y - yo) * Real.sin θ) ^ 2 / (2 * sx ^ 2) +
      (-(x - xo) * Real.sin θ + (y - yo) * Real.cos θ) ^ 2 / (2 * sy ^ 2))) = 1 := by
      have : amp * Real.exp (-(((x - xo) * Real.cos θ + (y - yo) * Real.sin θ) ^ 2 / (2 * sx ^ 2) +
        (-(x - xo) * Real.sin θ + (y - yo) * Real.cos θ) ^ 2 / (2 * sy ^ 2))) = amp * 1 := by rw [h, mul_one]
      exact mul_left_cancel₀ ha this
    rw [Real.exp_eq_one_iff, neg_eq_zero] at h1
    set u := (x - xo) * Real.cos θ + (y - yo) * Real.sin θ with hu
    set v := -(x - xo) * Real.sin θ + (y - yo) * Real.cos θ with hv
    have p1 : 0 ≤ u ^ 2 / (2 * sx ^ 2) := by positivity
    have p2 : 0 ≤ v ^ 2 / (2 * sy ^ 2) := by positivity
    have z1 : u ^ 2 / (2 * sx ^ 2) = 0 := by linarith
    have z2 : v ^ 2 / (2 * sy ^ 2) = 0 := by linarith
    have u0 : u = 0 := by
      rcases div_eq_zero_iff.mp z1 with h | h
      · exact pow_eq_zero_iff two_ne_zero |>.mp h
      · exact absurd h (by positivity)
    have v0 : v = 0 := by
      rcases div_eq_zero_iff.mp z2 with h | h
      · exact pow_eq_zero_iff two_ne_zero |>.mp h
      · exact absurd h (by positivity)
    have hcs := Real.sin_sq_add_cos_sq θ
    have e1 : x - xo = u * Real.cos θ - v * Real.sin θ := by
      rw [hu, hv]; linear_combination -(x - xo) * hcs
    have e2 : y - yo = u * Real.sin θ + v * Real.cos θ := by
      rw [hu, hv]; linear_combination -(y - yo) * hcs
    rw [u0, v0] at e1 e2
    constructor <;> linarith
  · rintro ⟨rfl, rfl⟩
    simp

/-- C35: everywhere the sign of the amplitude, and never larger. -/
theorem C35_bounded (x y amp xo yo sx sy θ : ℝ) :
    (0 < amp → 0 < gaussian x y amp xo yo sx sy θ) ∧ (amp < 0 → gaussian x y amp xo yo sx sy θ < 0) ∧
    |gaussian x y amp xo yo sx sy θ| ≤ |amp| := by
  rw [gaussian_axes]
  have hp := Real.exp_pos (-(((x - xo) * Real.cos θ + (y - yo) * Real.sin θ) ^ 2 / (2 * sx ^ 2) +
      (-(x - xo) * Real.sin θ + (y - yo) * Real.cos θ) ^ 2 / (2 * sy ^ 2)))
  refine ⟨fun h => mul_pos h hp, fun h => mul_neg_of_neg_of_pos h hp, ?_⟩
  rw [abs_mul, abs_of_pos hp]
  apply mul_le_of_le_one_right (abs_nonneg _)
  rw [Real.exp_le_one_iff, neg_nonpos]
  positivity

/-- C35: symmetric about the centre, independent of the signs of the widths, invariant under half turns;
exchanging the widths is a quarter turn. -/
theorem C35_symmetries (x y amp xo yo sx sy θ : ℝ) :
    gaussian (2 * xo - x) (2 * yo - y) amp xo yo sx sy θ = gaussian x y amp xo yo sx sy θ ∧
    gaussian x y amp xo yo (-sx) sy θ = gaussian x y amp xo yo sx sy θ ∧
    gaussian x y amp xo yo sx (-sy) θ = gaussian x y amp xo yo sx sy θ ∧
    gaussian x y amp xo yo sx sy (θ + Real.pi) = gaussian x y amp xo yo sx sy θ ∧
    gaussian x y amp xo yo sy sx θ = gaussian x y amp xo yo sx sy (θ + Real.pi / 2) := by
  simp only [gaussian_axes, Real.cos_add_pi, Real.sin_add_pi, Real.cos_add_pi_div_two,
    Real.sin_add_pi_div_two, neg_sq]
  refine ⟨?_, trivial, trivial, ?_, ?_⟩
  · congr 3
    have : 2 * xo - x - xo = -(x - xo) := by ring
    have h2 : 2 * yo - y - yo = -(y - yo) := by ring
    rw [this, h2]; ring
  · congr 3; ring
  · congr 3; ring

/-- C35: the level set through a point at one standard deviation along the major direction `θ` -/
theorem C35_direction (amp xo yo sx sy θ r : ℝ) :
    gaussian (xo + r * Real.cos θ) (yo + r * Real.sin θ) amp xo yo sx sy θ
      = amp * Real.exp (-(r ^ 2 / (2 * sx ^ 2))) ∧
    gaussian (xo - r * Real.sin θ) (yo + r * Real.cos θ) amp xo yo sx sy θ
      = amp * Real.exp (-(r ^ 2 / (2 * sy ^ 2))) := by
  have hcs := Real.sin_sq_add_cos_sq θ
  simp only [gaussian_axes]
  constructor
  · have e1 : (xo + r * Real.cos θ - xo) * Real.cos θ + (yo + r * Real.sin θ - yo) * Real.sin θ = r := by
      linear_combination r * hcs
    have e2 : -(xo + r * Real.cos θ - xo) * Real.sin θ + (yo + r * Real.sin θ - yo) * Real.cos θ = 0 := by
      ring
    rw [e1, e2]; simp
  · have e1 : (xo - r * Real.sin θ - xo) * Real.cos θ + (yo + r * Real.cos θ - yo) * Real.sin θ = 0 := by
      ring
    have e2 : -(xo - r * Real.sin θ - xo) * Real.sin θ + (yo + r * Real.cos θ - yo) * Real.cos θ = r := by
      linear_combination r * hcs
    rw [e1, e2]; simp

/-! ### C36 -/

/-- C36, positive part: the field generated with tilt `θ` is the fitted Gaussian with tilt `-θ`. -/
theorem C36_partial (x y amp xo yo sx sy θ : ℝ) (h : sy ≠ 0 ∨ sx ≠ 0) :
    genGaussian x y amp xo yo sx sy θ = gaussian x y amp xo yo sx sy (-θ) := by
  unfold genGaussian gaussian
  rw [if_pos h]
  simp only [Real.cos_neg, Real.sin_neg, mul_neg, neg_sq]
  congr 3
  ring

/-- C36 is false: with tilt 45° the generated bump is larger than the fitted one where it should be equal. -/
theorem C36_refuted : ∃ x y amp xo yo sx sy θ : ℝ, sx ≠ 0 ∧ sy ≠ 0 ∧
    genGaussian x y amp xo yo sx sy θ ≠ gaussian x y amp xo yo sx sy θ := by
  refine ⟨1, 1, 1, 0, 0, 2, 1, Real.pi / 4, by norm_num, by norm_num, ?_⟩
  unfold genGaussian gaussian
  rw [if_pos (by norm_num)]
  have h2 : 2 * (Real.pi / 4) = Real.pi / 2 := by ring
  simp only [h2, Real.sin_pi_div_two, one_mul]
  intro h
  have := Real.exp_injective h
  norm_num at this

/-- the two conventions agree exactly when the tilt does not matter or is a multiple of 90° -/
theorem C36_agree_iff (sx sy θ : ℝ) (hx : sx ≠ 0) (hy : sy ≠ 0) :
    (∀ x y amp xo yo, genGaussian x y amp xo yo sx sy θ = gaussian x y amp xo yo sx sy θ) ↔
      sx ^ 2 = sy ^ 2 ∨ Real.sin (2 * θ) = 0 := by
  have hb : ∀ x y : ℝ, genGaussian x y 1 0 0 sx sy θ = gaussian x y 1 0 0 sx sy θ ↔
      (x * y) * (Real.sin (2 * θ) * (sx ^ 2 - sy ^ 2)) = 0 := by
    intro x y
    unfold genGaussian gaussian
    rw [if_pos (Or.inl hy)]
    simp only [sub_zero, one_mul]
    rw [Real.exp_injective.eq_iff, neg_inj]
    generalize Real.cos θ ^ 2 / (2 * sx ^ 2) + Real.sin θ ^ 2 / (2 * sy ^ 2) = a
    generalize Real.sin θ ^ 2 / (2 * sx ^ 2) + Real.cos θ ^ 2 / (2 * sy ^ 2) = c
    generalize Real.sin (2 * θ) = s
    have e : -s / (4 * sx ^ 2) + s / (4 * sy ^ 2) = s * (sx ^ 2 - sy ^ 2) / (4 * sx ^ 2 * sy ^ 2) := by
      field_simp; ring
    have e' : s / (4 * sx ^ 2) - s / (4 * sy ^ 2) = -(s * (sx ^ 2 - sy ^ 2) / (4 * sx ^ 2 * sy ^ 2)) := by
      field_simp; ring
    rw [e, e']
    constructor
    · intro h
      have h' : 4 * (x * y) * (s * (sx ^ 2 - sy ^ 2) / (4 * sx ^ 2 * sy ^ 2)) = 0 := by linear_combination h
      have : (x * y) * (s * (sx ^ 2 - sy ^ 2)) =
          sx ^ 2 * sy ^ 2 * (4 * (x * y) * (s * (sx ^ 2 - sy ^ 2) / (4 * sx ^ 2 * sy ^ 2))) := by
        field_simp
      rw [this, h', mul_zero]
    · intro h
      have h' : (x * y) * (s * (sx ^ 2 - sy ^ 2) / (4 * sx ^ 2 * sy ^ 2)) = 0 := by
        rw [← mul_div_assoc, h, zero_div]
      linear_combination 4 * h'
  constructor
  · intro h
    have := (hb 1 1).mp (h 1 1 1 0 0)
    rw [one_mul, one_mul] at this
    rcases mul_eq_zero.mp this with h | h
    · exact Or.inr h
    · exact Or.inl (by linarith)
  · intro h x y amp xo yo
    unfold genGaussian gaussian
    rw [if_pos (Or.inl hy)]
    simp only
    congr 3
    rcases h with h | h
    · rw [h]; ring
    · rw [h]; ring

/-! ### C37 -/

theorem mean_pos_of_pos {l : List ℝ} (hne : l ≠ []) (h : ∀ v ∈ l, 0 < v) : 0 < mean l := by
  unfold mean
  have hl : (0:ℝ) < l.length := by exact_mod_cast List.length_pos_iff.mpr hne
  exact div_pos (List.sum_pos l h hne) hl

theorem mean_neg_of_neg {l : List ℝ} (hne : l ≠ []) (h : ∀ v ∈ l, v < 0) : mean l < 0 := by
  have : mean (l.map (fun v => -v)) = -mean l := by
    unfold mean
    rw [List.length_map, ← neg_div]
    congr 1
    induction l with
    | nil => simp
    | cons a l ih =>
      by_cases hl : l = []
      · simp [hl]
      · simp only [List.map_cons, List.sum_cons]
        rw [ih hl (fun v hv => h v (List.mem_cons_of_mem _ hv))]; ring
  have h2 := mean_pos_of_pos (l := l.map (fun v => -v)) (by simpa using hne) (by
    intro v hv
    obtain ⟨w, hw, rfl⟩ := List.mem_map.mp hv
    have := h w hw
    linarith)
  rw [this] at h2
  linarith

/-- feasible for scipy: lower below upper, and the initial value between them -/
def Feasible (b : ℝ × ℝ) (init : ℝ) : Prop := b.1 < b.2 ∧ b.1 ≤ init ∧ init ≤ b.2

theorem feasible_delta {x d : ℝ} (h : d ≠ 0) : Feasible (sortPair (x - d, x + d)) x := by
  unfold Feasible sortPair
  rcases lt_or_gt_of_ne h with h | h
  · rw [min_eq_right (by linarith), max_eq_left (by linarith)]
    exact ⟨by simp only; linarith, by simp only; linarith, by simp only; linarith⟩
  · rw [min_eq_left (by linarith), max_eq_right (by linarith)]
    exact ⟨by simp only; linarith, by simp only; linarith, by simp only; linarith⟩

theorem feasible_rawBound (i : ℝ) : Feasible (sortPair (rawBound i)) i := by
  unfold rawBound
  split
  · rename_i h
    exact feasible_delta (x := i) (d := 7 / 10 * i) (by simpa using h)
  · rename_i h
    have : i = 0 := by simpa using h
    subst this
    norm_num [Feasible, sortPair]

/-- C37: the bounds are feasible whenever the mean grid spacings are not zero, for every extremum and
every (positive, negative or zero) ellipse parameter; there is one bound per parameter. -/
theorem C37_feasible (X Y : List (List ℝ)) (x y : ℝ) (prm : List ℝ)
    (hx : mean (diffAxis1 X) ≠ 0) (hy : mean (diffAxis0 Y) ≠ 0) :
    List.Forall₂ Feasible (constructBounds X Y x y prm) (x :: y :: prm) := by
  unfold constructBounds
  simp only [List.map_cons]
  refine List.Forall₂.cons (feasible_delta hx) (List.Forall₂.cons (feasible_delta hy) ?_)
  induction prm with
  | nil => exact List.Forall₂.nil
  | cons i prm ih => exact List.Forall₂.cons (feasible_rawBound i) ih

/-- all rows strictly ascending, or all strictly descending -/
def MonoRows (X : List (List ℝ)) : Prop :=
  (∀ r ∈ X, r.Pairwise (· < ·)) ∨ (∀ r ∈ X, r.Pairwise (· > ·))

theorem diffs_pos {l : List ℝ} (h : l.Pairwise (· < ·)) : ∀ v ∈ diffs l, 0 < v := by
  induction l with
  | nil => simp [diffs]
  | cons a l ih =>
    cases l with
    | nil => simp [diffs]
    | cons b l =>
      intro v hv
      simp only [diffs, List.tail_cons, List.zipWith_cons_cons, List.mem_cons] at hv
      rcases hv with rfl | hv
      · have := List.rel_of_pairwise_cons h (List.mem_cons_self (a := b) (l := l)); linarith
      · exact ih (List.Pairwise.of_cons h) v (by simpa [diffs] using hv)

theorem diffs_neg {l : List ℝ} (h : l.Pairwise (· > ·)) : ∀ v ∈ diffs l, v < 0 := by
  induction l with
  | nil => simp [diffs]
  | cons a l ih =>
    cases l with
    | nil => simp [diffs]
    | cons b l =>
      intro v hv
      simp only [diffs, List.tail_cons, List.zipWith_cons_cons, List.mem_cons] at hv
      rcases hv with rfl | hv
      · have := List.rel_of_pairwise_cons h (List.mem_cons_self (a := b) (l := l)); linarith
      · exact ih (List.Pairwise.of_cons h) v (by simpa [diffs] using hv)

/-- C37: a window with a row of at least two longitudes, all rows in the same strict order, has non-zero
mean spacing in x. -/
theorem C37_spacing_x (X : List (List ℝ)) (hm : MonoRows X) (h2 : ∃ r ∈ X, 2 ≤ r.length) :
    mean (diffAxis1 X) ≠ 0 := by
  have hne : diffAxis1 X ≠ [] := by
    obtain ⟨r, hr, hl⟩ := h2
    match r, hl with
    | a :: b :: r, _ =>
      apply List.ne_nil_of_mem (a := b - a)
      unfold diffAxis1
      rw [List.mem_flatten]
      exact ⟨diffs (a :: b :: r), List.mem_map_of_mem hr, by simp [diffs]⟩
  rcases hm with hm | hm
  · apply ne_of_gt
    apply mean_pos_of_pos hne
    intro v hv
    obtain ⟨l, hl, hv⟩ := List.mem_flatten.mp hv
    obtain ⟨r, hr, rfl⟩ := List.mem_map.mp hl
    exact diffs_pos (hm r hr) v hv
  · apply ne_of_lt
    apply mean_neg_of_neg hne
    intro v hv
    obtain ⟨l, hl, hv⟩ := List.mem_flatten.mp hv
    obtain ⟨r, hr, rfl⟩ := List.mem_map.mp hl
    exact diffs_neg (hm r hr) v hv

/-- C37: likewise in y: two rows, every value of a row smaller (or every value larger) than the one
below it. -/
theorem C37_spacing_y (Y : List (List ℝ)) (hne : diffAxis0 Y ≠ [])
    (hm : (∀ v ∈ diffAxis0 Y, 0 < v) ∨ (∀ v ∈ diffAxis0 Y, v < 0)) : mean (diffAxis0 Y) ≠ 0 := by
  rcases hm with hm | hm
  · exact (mean_pos_of_pos hne hm).ne'
  · exact (mean_neg_of_neg hne hm).ne

theorem diffAxis0_mem (lats : List ℝ) (n : Nat) :
    ∀ v ∈ diffAxis0 (lats.map fun t => List.replicate n t), v ∈ diffs lats := by
  induction lats with
  | nil => simp [diffAxis0]
  | cons a l ih =>
    cases l with
    | nil => simp [diffAxis0]
    | cons b l =>
      intro v hv
      simp only [diffAxis0, List.map_cons, List.tail_cons, List.zipWith_cons_cons, List.flatten_cons,
        List.mem_append] at hv
      simp only [diffs, List.tail_cons, List.zipWith_cons_cons, List.mem_cons]
      rcases hv with hv | hv
      · left
        rw [List.zipWith_replicate', List.mem_replicate] at hv
        exact hv.2
      · right
        have := ih v (by simpa [diffAxis0] using hv)
        simpa [diffs] using this

/-- C37 for the grids built from 1D coordinates: any strictly ascending or descending longitudes and
latitudes, at least two of each. -/
theorem C37_meshgrid (lons lats : List ℝ) (x y : ℝ) (prm : List ℝ)
    (hlon : lons.Pairwise (· < ·) ∨ lons.Pairwise (· > ·))
    (hlat : lats.Pairwise (· < ·) ∨ lats.Pairwise (· > ·))
    (hl : 2 ≤ lons.length) (hl' : 2 ≤ lats.length) :
    List.Forall₂ Feasible
      (constructBounds (lats.map fun _ => lons) (lats.map fun t => List.replicate lons.length t) x y prm)
      (x :: y :: prm) := by
  apply C37_feasible
  · apply C37_spacing_x
    · rcases hlon with h | h
      · left; intro r hr; obtain ⟨_, _, rfl⟩ := List.mem_map.mp hr; exact h
      · right; intro r hr; obtain ⟨_, _, rfl⟩ := List.mem_map.mp hr; exact h
    · match lats, hl' with
      | t :: _, _ => exact ⟨lons, List.mem_map.mpr ⟨t, by simp, rfl⟩, hl⟩
  · apply C37_spacing_y
    · match lats, hl' with
      | a :: b :: l, _ =>
        apply List.ne_nil_of_mem (a := b - a)
        simp only [diffAxis0, List.map_cons, List.tail_cons, List.zipWith_cons_cons, List.flatten_cons,
          List.mem_append]
        left
        rw [List.zipWith_replicate', List.mem_replicate]
        exact ⟨by omega, rfl⟩
    · rcases hlat with h | h
      · left; intro v hv; exact diffs_pos h v (diffAxis0_mem _ _ v hv)
      · right; intro v hv; exact diffs_neg h v (diffAxis0_mem _ _ v hv)

/-- a descending latitude axis and a zero and a negative ellipse parameter -/
example : constructBounds [[0, 1], [0, 1]] [[5, 5], [3, 3]] 10 4 [1, 0, -1]
    = [(9, 11), (2, 6), (3 / 10, 17 / 10), (-1 / 10000, 1 / 10000), (-17 / 10, -3 / 10)] := by
  norm_num [constructBounds, diffAxis1, diffAxis0, diffs, mean, rawBound, sortPair]

/-! ### C38 -/

theorem mean_nonneg' {l : List ℝ} (h : ∀ v ∈ l, 0 ≤ v) : 0 ≤ mean l := by
  unfold mean
  exact div_nonneg (List.sum_nonneg h) (Nat.cast_nonneg _)

theorem mean_eq_zero {l : List ℝ} (hne : l ≠ []) (h : ∀ v ∈ l, 0 ≤ v) (hz : mean l = 0) : ∀ v ∈ l, v = 0 := by
  unfold mean at hz
  have hl : (l.length : ℝ) ≠ 0 := by exact_mod_cast fun e => hne (List.length_eq_zero_iff.mp e)
  have hs : l.sum = 0 := by
    rcases div_eq_zero_iff.mp hz with h | h
    · exact h
    · exact absurd h hl
  clear hz hl hne
  induction l with
  | nil => simp
  | cons a l ih =>
    have h0 := h a List.mem_cons_self
    have h1 : 0 ≤ l.sum := List.sum_nonneg fun v hv => h v (List.mem_cons_of_mem _ hv)
    rw [List.sum_cons] at hs
    intro v hv
    rcases List.mem_cons.mp hv with rfl | hv
    · linarith
    · exact ih (fun v hv => h v (List.mem_cons_of_mem _ hv)) (by linarith) v hv

theorem mean_const {l : List ℝ} {c : ℝ} (hne : l ≠ []) (h : ∀ v ∈ l, v = c) : mean l = c := by
  unfold mean
  have hl : (l.length : ℝ) ≠ 0 := by exact_mod_cast fun e => hne (List.length_eq_zero_iff.mp e)
  rw [List.eq_replicate_of_mem h, List.sum_replicate, List.length_replicate]
  rw [nsmul_eq_mul]
  field_simp

theorem absResiduals_nonneg {l : List (Option ℝ × ℝ)} : ∀ v ∈ absResiduals l, 0 ≤ v := by
  intro v hv
  obtain ⟨p, _, hp⟩ := List.mem_filterMap.mp hv
  cases hd : p.1 with
  | none => rw [hd] at hp; simp at hp
  | some d => rw [hd] at hp; simp at hp; rw [← hp]; exact abs_nonneg _

/-- the misfit at the valid points of the window -/
def Misfit (l : List (Option ℝ × ℝ)) (v : ℝ) : Prop := ∃ d g, (some d, g) ∈ l ∧ v = |d - g|

theorem mem_absResiduals {l : List (Option ℝ × ℝ)} {v : ℝ} : v ∈ absResiduals l ↔ Misfit l v := by
  unfold absResiduals Misfit
  rw [List.mem_filterMap]
  constructor
  · rintro ⟨⟨o, g⟩, hp, h⟩
    cases o with
    | none => simp at h
    | some d => simp at h; exact ⟨d, g, hp, h.symm⟩
  · rintro ⟨d, g, hp, rfl⟩
    exact ⟨(some d, g), hp, by simp⟩

/-- C38, what holds: with a valid point the residual is a non-negative number, zero for a perfect fit, and
zero exactly when the misfit has the same size at all valid points. -/
theorem C38_partial (l : List (Option ℝ × ℝ)) (hv : ∃ v, Misfit l v) :
    ∃ r, gaussianResidual l = some r ∧ 0 ≤ r ∧ ((∀ v, Misfit l v → v = 0) → r = 0) ∧
      (r = 0 ↔ ∃ c, ∀ v, Misfit l v → v = c) := by
  have hne : absResiduals l ≠ [] := by
    obtain ⟨v, hv⟩ := hv; exact List.ne_nil_of_mem (mem_absResiduals.mpr hv)
  have iff : stdev (absResiduals l) * mean (absResiduals l) = 0 ↔ ∃ c, ∀ v, Misfit l v → v = c := by
    constructor
    · intro h
      rcases mul_eq_zero.mp h with h | h
      · refine ⟨mean (absResiduals l), fun v hv => ?_⟩
        unfold stdev at h
        have hnn : ∀ w ∈ (absResiduals l).map (fun v => |v - mean (absResiduals l)| ^ 2), 0 ≤ w := by
          intro w hw; obtain ⟨u, _, rfl⟩ := List.mem_map.mp hw; positivity
        rw [Real.sqrt_eq_zero (mean_nonneg' hnn)] at h
        have := mean_eq_zero (by simpa using hne) hnn h (|v - mean (absResiduals l)| ^ 2)
          (List.mem_map.mpr ⟨v, mem_absResiduals.mpr hv, rfl⟩)
        have := abs_eq_zero.mp (pow_eq_zero_iff two_ne_zero |>.mp this)
        linarith
      · exact ⟨0, fun v hv => mean_eq_zero hne absResiduals_nonneg h v (mem_absResiduals.mpr hv)⟩
    · rintro ⟨c, hc⟩
      have hm := mean_const hne (fun v hv => hc v (mem_absResiduals.mp hv))
      have : stdev (absResiduals l) = 0 := by
        unfold stdev
        rw [Real.sqrt_eq_zero', hm]
        apply le_of_eq
        apply mean_const (by simpa using hne)
        intro w hw
        obtain ⟨u, hu, rfl⟩ := List.mem_map.mp hw
        rw [hc u (mem_absResiduals.mp hu)]; simp
      rw [this, zero_mul]
  refine ⟨stdev (absResiduals l) * mean (absResiduals l), by simp [gaussianResidual, hne], ?_, ?_, iff⟩
  · exact mul_nonneg (Real.sqrt_nonneg _) (mean_nonneg' absResiduals_nonneg)
  · intro h; exact iff.mpr ⟨0, h⟩

/-- C38 is false: a Gaussian that is wrong by 7 at every point has residual zero. -/
theorem C38_refuted : ∃ l : List (Option ℝ × ℝ), gaussianResidual l = some 0 ∧
    ∀ d g, (some d, g) ∈ l → |d - g| = 7 := by
  refine ⟨[(some 8, 1), (some (-5), 2), (none, 4)], ?_, ?_⟩
  · obtain ⟨r, h, _, _, h0⟩ := C38_partial [(some 8, 1), (some (-5), 2), (none, 4)]
      ⟨7, 8, 1, by simp, by norm_num⟩
    rw [h, h0.mpr]
    refine ⟨7, ?_⟩
    rintro v ⟨d, g, hm, rfl⟩
    simp only [List.mem_cons, Prod.mk.injEq, Option.some.injEq, List.not_mem_nil, or_false, reduceCtorEq,
      false_and] at hm
    rcases hm with ⟨rfl, rfl⟩ | ⟨rfl, rfl⟩ <;> norm_num
  · intro d g hm
    simp only [List.mem_cons, Prod.mk.injEq, Option.some.injEq, List.not_mem_nil, or_false, reduceCtorEq,
      false_and] at hm
    rcases hm with ⟨rfl, rfl⟩ | ⟨rfl, rfl⟩ <;> norm_num

end Trackeddy
