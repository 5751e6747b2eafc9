import Verif.Proofs.Mirror
import Verif.Props.Similarity
import Verif.Props.Frechet

/-!
C130: the score of two curves and the listing of their points.
-/
namespace Trackeddy

theorem arcLength_cons (p q : ℝ × ℝ) (l : List (ℝ × ℝ)) : arcLength (p :: q :: l) = eucl p q + arcLength (q :: l) := by
  unfold arcLength
  rw [arcLoop, arcLoop_eq, zero_add]

theorem arcLength_join (l₁ l₂ : List (ℝ × ℝ)) (x : ℝ × ℝ) :
    arcLength (l₁ ++ x :: l₂) = arcLength (l₁ ++ [x]) + arcLength (x :: l₂) := by
  induction l₁ with
  | nil => simp [arcLength, arcLoop]
  | cons p l₁ ih =>
    cases l₁ with
    | nil =>
      simp only [List.cons_append, List.nil_append, arcLength_cons]
      simp [arcLength, arcLoop]
    | cons q l₁ =>
      simp only [List.cons_append, arcLength_cons] at *
      rw [ih]; ring

/-- **C130, partial**: the length of a closed contour does not depend on where its listing starts. -/
theorem C130_partial_length (p x : ℝ × ℝ) (A B : List (ℝ × ℝ)) :
    arcLength (x :: B ++ p :: A ++ [x]) = arcLength (p :: A ++ x :: B ++ [p]) := by
  have a1 := arcLength_join (p :: A) (B ++ [p]) x
  have a2 := arcLength_join (x :: B) (A ++ [x]) p
  simp only [List.cons_append, List.append_assoc] at a1 a2 ⊢
  rw [a1, a2]
  ring

/-- **C130, partial**: the score does not depend on the direction if both curves are listed backwards, for curves that are not
thinned out. Missing: the other listings, see `C130_start` and `C130_refuted`. -/
theorem C130_partial (limit : Nat) {A B : List (ℝ × ℝ)} (h : A.length ≤ 300 ∨ B.length ≤ 300) :
    similarity limit A.reverse B.reverse = similarity limit A B := by
  unfold similarity
  rw [arcLength_reverse, arcLength_reverse, Frechet.frdist_reverse limit h]

/-- **C130** is false for every closed contour: compared with itself, but listed from another vertex, its score is (up to the
rounding) at most one minus the distance of the two first vertices divided by the length of the contour over √2. -/
theorem C130_start (limit : Nat) (p x : ℝ × ℝ) (A B : List (ℝ × ℝ)) (hl : 0 < arcLength (p :: A ++ x :: B ++ [p])) {r : Option ℝ}
    (h : similarity limit (p :: A ++ x :: B ++ [p]) (x :: B ++ p :: A ++ [x]) = .ok r) :
    ∃ s, r = some s ∧ s ≤ max (1 - eucl p x * Real.sqrt 2 / arcLength (p :: A ++ x :: B ++ [p])) 0 + 1 / 20000 := by
  have hl' : 0 < arcLength (x :: B ++ p :: A ++ [x]) := by rwa [C130_partial_length]
  obtain ⟨s, d, rfl, hd, -, -, hs⟩ := C28_similarity_range limit hl hl' h
  refine ⟨s, rfl, ?_⟩
  have hfirst := Frechet.C25_frdist_ge_first limit eucl eucl_symm _ _ p x (by simp) (by simp) d hd
  rw [C130_partial_length p x A B, Real.sqrt_mul_self hl.le] at hs
  have h1 := (abs_le.1 hs).2
  have h2 : max (1 - d * Real.sqrt 2 / arcLength (p :: A ++ x :: B ++ [p])) 0 ≤
      max (1 - eucl p x * Real.sqrt 2 / arcLength (p :: A ++ x :: B ++ [p])) 0 := by
    apply max_le_max _ (le_refl _)
    have : eucl p x * Real.sqrt 2 / arcLength (p :: A ++ x :: B ++ [p]) ≤ d * Real.sqrt 2 / arcLength (p :: A ++ x :: B ++ [p]) := by
      gcongr
    linarith
  linarith

/-- a square -/
def squareFrom : List (ℝ × ℝ) := [(0, 0), (1, 0), (1, 1), (0, 1), (0, 0)]

/-- the same square, listed from the opposite corner -/
def squareOpp : List (ℝ × ℝ) := [(1, 1), (0, 1), (0, 0), (1, 0), (1, 1)]

theorem squareFrom_length : arcLength squareFrom = 4 := by
  unfold squareFrom
  simp only [arcLength_cons]
  simp [arcLength, arcLoop, eucl]
  norm_num

/-- **C130** is false: a square has the score 1 with itself and a score of at most 0.51 with the listing from the opposite corner,
in which the vertices come in the same direction. -/
theorem C130_refuted (limit : Nat) (hlim : 8 < limit) : similarity limit squareFrom squareFrom = .ok (some 1) ∧
    ∃ s, similarity limit squareFrom squareOpp = .ok (some s) ∧ s ≤ 51 / 100 := by
  have hpos : 0 < arcLength squareFrom := by rw [squareFrom_length]; norm_num
  have hdef : ∀ q : List (ℝ × ℝ), q.length = 5 → ∃ v, similarity limit squareFrom q = .ok v := by
    intro q hq
    obtain ⟨d, hd, _⟩ := Frechet.C24_frdist_is_discrete_frechet limit eucl eucl_symm squareFrom q (by simp [squareFrom])
      (by rintro rfl; simp at hq) (Or.inl (by simp [squareFrom])) (by simp [squareFrom, hq]; omega)
    unfold similarity
    simp only [hd, bind, Except.bind, pure, Except.pure]
    split <;> exact ⟨_, rfl⟩
  constructor
  · obtain ⟨v, hv⟩ := hdef squareFrom rfl
    rw [hv, C28_similarity_self limit hpos hv]
  · obtain ⟨v, hv⟩ := hdef squareOpp rfl
    obtain ⟨s, rfl, hs⟩ := C130_start limit (0, 0) (1, 1) [(1, 0)] [(0, 1)] hpos hv
    refine ⟨s, hv, hs.trans ?_⟩
    have e : arcLength ((0, 0) :: [(1, 0)] ++ (1, 1) :: [(0, 1)] ++ [((0 : ℝ), (0 : ℝ))]) = 4 := squareFrom_length
    have e2 : eucl (0, 0) (1, 1) = Real.sqrt 2 := by unfold eucl; norm_num
    rw [e, e2, Real.mul_self_sqrt (by norm_num)]
    norm_num

/-- non-vacuity of the partial theorem: the square and its listing from the opposite corner are short -/
example : squareFrom.length ≤ 300 ∨ squareOpp.length ≤ 300 := by simp [squareFrom]

end Trackeddy
