import Verif.Spec.Mask
import Mathlib.Algebra.BigOperators.Intervals
import Mathlib.Data.Real.Basic
import Mathlib.Tactic.Linarith
import Mathlib.Tactic.Ring

/-! What is enclosed by pixels does not depend on the window around them. -/
namespace Trackeddy
open Spec

/-- a straight walk that meets no pixel of the contour -/
theorem walk_straight {C : Int × Int → Prop} (q d : Int × Int) (hd : |d.1| + |d.2| = 1) (n : ℕ)
    (h : ∀ k : ℕ, k < n → ¬ C (q.1 + k * d.1, q.2 + k * d.2)) :
    Relation.ReflTransGen (fun a b => ¬ C a ∧ Adj a b) q (q.1 + n * d.1, q.2 + n * d.2) := by
  induction n with
  | zero => simpa using Relation.ReflTransGen.refl
  | succ n ih =>
    refine (ih fun k hk => h k (by omega)).tail ⟨h n (by omega), ?_⟩
    unfold Adj
    rw [← hd]
    have e1 : q.1 + n * d.1 - (q.1 + (n + 1 : ℕ) * d.1) = -d.1 := by push_cast; ring
    have e2 : q.2 + n * d.2 - (q.2 + (n + 1 : ℕ) * d.2) = -d.2 := by push_cast; ring
    simp only [e1, e2, abs_neg]

/-- from outside a box that contains the contour a walk leads out of the grid -/
theorem leaves_grid {C : Int × Int → Prop} {ny nx : ℕ} {b0 b1 t0 t1 : Int}
    (hC : ∀ p, C p → b0 ≤ p.1 ∧ p.1 < t0 ∧ b1 ≤ p.2 ∧ p.2 < t1) {q : Int × Int}
    (hq : ¬ (b0 ≤ q.1 ∧ q.1 < t0 ∧ b1 ≤ q.2 ∧ q.2 < t1)) :
    ∃ q', ¬ InWindow ny nx q' ∧ Relation.ReflTransGen (fun a b => ¬ C a ∧ Adj a b) q q' := by
  have key : ∀ d : Int × Int, |d.1| + |d.2| = 1 →
      (∀ k : ℕ, ¬ (b0 ≤ q.1 + k * d.1 ∧ q.1 + k * d.1 < t0 ∧ b1 ≤ q.2 + k * d.2 ∧ q.2 + k * d.2 < t1)) →
      (∃ n : ℕ, ¬ InWindow ny nx (q.1 + n * d.1, q.2 + n * d.2)) →
      ∃ q', ¬ InWindow ny nx q' ∧ Relation.ReflTransGen (fun a b => ¬ C a ∧ Adj a b) q q' := by
    rintro d hd hk ⟨n, hn⟩
    exact ⟨_, hn, walk_straight q d hd n fun k _ hc => hk k (hC _ hc)⟩
  by_cases h1 : q.1 < b0
  · apply key (-1, 0) (by simp)
    · intro k; simp only; omega
    · exact ⟨q.1.toNat + 1, by unfold InWindow; simp only; omega⟩
  by_cases h2 : t0 ≤ q.1
  · apply key (1, 0) (by simp)
    · intro k; simp only; omega
    · exact ⟨(ny - q.1).toNat, by unfold InWindow; simp only; omega⟩
  by_cases h3 : q.2 < b1
  · apply key (0, -1) (by simp)
    · intro k; simp only; omega
    · exact ⟨q.2.toNat + 1, by unfold InWindow; simp only; omega⟩
  · apply key (0, 1) (by simp)
    · intro k; simp only; omega
    · exact ⟨(nx - q.2).toNat, by unfold InWindow; simp only; omega⟩

/-- Enclosed in a window that contains the contour is enclosed in the grid. -/
theorem inside_window {C : Int × Int → Prop} {ny nx h w : ℕ} {b0 b1 : Int} (hb0 : 0 ≤ b0) (hb1 : 0 ≤ b1)
    (ht0 : b0 + h ≤ ny) (ht1 : b1 + w ≤ nx)
    (hC : ∀ p, C p → b0 ≤ p.1 ∧ p.1 < b0 + h ∧ b1 ≤ p.2 ∧ p.2 < b1 + w) (q : Int × Int) :
    Inside h w (fun p => C (p.1 + b0, p.2 + b1)) q ↔ Inside ny nx C (q.1 + b0, q.2 + b1) := by
  have shift : ∀ {a b : Int × Int}, Relation.ReflTransGen
      (fun a b : Int × Int => ¬ C (a.1 + b0, a.2 + b1) ∧ Adj a b) a b →
      Relation.ReflTransGen (fun a b => ¬ C a ∧ Adj a b) (a.1 + b0, a.2 + b1) (b.1 + b0, b.2 + b1) := by
    intro a b hab
    refine Relation.ReflTransGen.lift (fun p : Int × Int => (p.1 + b0, p.2 + b1)) ?_ _ _ hab
    rintro p p' ⟨h1, h2⟩
    refine ⟨h1, ?_⟩
    unfold Adj at h2 ⊢
    simp only [add_sub_add_right_eq_sub]
    exact h2
  have shift' : ∀ {a b : Int × Int}, Relation.ReflTransGen (fun a b => ¬ C a ∧ Adj a b) a b →
      Relation.ReflTransGen (fun a b : Int × Int => ¬ C (a.1 + b0, a.2 + b1) ∧ Adj a b) (a.1 - b0, a.2 - b1)
        (b.1 - b0, b.2 - b1) := by
    intro a b hab
    refine Relation.ReflTransGen.lift (fun p : Int × Int => (p.1 - b0, p.2 - b1)) ?_ _ _ hab
    rintro p p' ⟨h1, h2⟩
    refine ⟨by simpa using h1, ?_⟩
    unfold Adj at h2 ⊢
    simp only [sub_sub_sub_cancel_right]
    exact h2
  have hesc : Escapes h w (fun p => C (p.1 + b0, p.2 + b1)) q ↔ Escapes ny nx C (q.1 + b0, q.2 + b1) := by
    constructor
    · rintro ⟨x, hx, hp⟩
      obtain ⟨y, hy, hp'⟩ := leaves_grid (ny := ny) (nx := nx) hC (q := (x.1 + b0, x.2 + b1))
        (by unfold InWindow at hx; simp only; omega)
      exact ⟨y, hy, (shift hp).trans hp'⟩
    · rintro ⟨x, hx, hp⟩
      refine ⟨(x.1 - b0, x.2 - b1), by unfold InWindow at hx ⊢; simp only; omega, ?_⟩
      simpa using shift' hp
  constructor
  · rintro ⟨h1, h2⟩
    refine ⟨by unfold InWindow at h1 ⊢; simp only; omega, ?_⟩
    rw [hesc] at h2
    exact h2
  · rintro ⟨h1, h2⟩
    have hW : b0 ≤ q.1 + b0 ∧ q.1 + b0 < b0 + h ∧ b1 ≤ q.2 + b1 ∧ q.2 + b1 < b1 + w := by
      rcases h2 with h2 | h2
      · exact hC _ h2
      · by_contra hn
        exact h2 (leaves_grid hC hn)
    refine ⟨by unfold InWindow; omega, ?_⟩
    rw [hesc]
    exact h2

/-- what is enclosed in the grid lies in the window -/
theorem inside_box {C : Int × Int → Prop} {ny nx : ℕ} {b0 b1 t0 t1 : Int}
    (hC : ∀ p, C p → b0 ≤ p.1 ∧ p.1 < t0 ∧ b1 ≤ p.2 ∧ p.2 < t1) {q : Int × Int} (hq : Inside ny nx C q) :
    b0 ≤ q.1 ∧ q.1 < t0 ∧ b1 ≤ q.2 ∧ q.2 < t1 := by
  rcases hq.2 with h2 | h2
  · exact hC _ h2
  · by_contra hn
    exact h2 (leaves_grid hC hn)

theorem sum_window {n h b : ℕ} (hb : b + h ≤ n) (f : ℕ → ℝ) (hf : ∀ r < n, f r ≠ 0 → b ≤ r ∧ r < b + h) :
    ∑ r ∈ Finset.range n, f r = ∑ r ∈ Finset.range h, f (b + r) := by
  have h1 : ∑ r ∈ Finset.Ico b (b + h), f r = ∑ r ∈ Finset.range n, f r := by
    apply Finset.sum_subset
    · intro r hr
      rw [Finset.mem_Ico] at hr
      rw [Finset.mem_range]
      omega
    · intro r hr hn
      rw [Finset.mem_range] at hr
      rw [Finset.mem_Ico] at hn
      by_contra h0
      exact hn (hf r hr h0)
  rw [← h1, Finset.sum_Ico_eq_sum_range]
  congr 1
  rw [Nat.add_sub_cancel_left]

open Classical in
/-- the sum over a window that contains everything enclosed -/
theorem total_window {ny nx h w b0 b1 : ℕ} (h0 : b0 + h ≤ ny) (h1 : b1 + w ≤ nx) {C : Int × Int → Prop} {D : ℕ → ℕ → Option ℝ}
    {inside : ℕ → ℕ → Bool} (hi : ∀ r < h, ∀ c < w, (inside r c = true ↔ Inside ny nx C (((b0 + r : ℕ) : Int), ((b1 + c : ℕ) : Int))))
    (hC : ∀ r c : ℕ, Inside ny nx C (r, c) → b0 ≤ r ∧ r < b0 + h ∧ b1 ≤ c ∧ c < b1 + w) :
    total h w (fun r c => D (b0 + r) (b1 + c)) inside =
      ∑ r ∈ Finset.range ny, ∑ c ∈ Finset.range nx, if Inside ny nx C (r, c) then (D r c).getD 0 else 0 := by
  rw [sum_window h0]
  · unfold total
    apply Finset.sum_congr rfl
    intro r hr
    rw [sum_window h1]
    · apply Finset.sum_congr rfl
      intro c hc
      have := hi r (Finset.mem_range.1 hr) c (Finset.mem_range.1 hc)
      by_cases hin : Inside ny nx C (((b0 + r : ℕ) : Int), ((b1 + c : ℕ) : Int))
      · rw [if_pos hin, this.2 hin]
        cases hd : D (b0 + r) (b1 + c) <;> simp [hd]
      · rw [if_neg hin]
        have h2 : inside r c = false := by
          cases hb : inside r c
          · rfl
          · exact absurd (this.1 hb) hin
        rw [h2]
        cases hd : D (b0 + r) (b1 + c) <;> simp [hd]
    · intro c _ hne
      by_contra hcon
      apply hne
      rw [if_neg fun hin => hcon (hC _ _ hin).2.2]
  · intro r _ hne
    by_contra hcon
    apply hne
    apply Finset.sum_eq_zero
    intro c _
    rw [if_neg fun hin => hcon ⟨(hC _ _ hin).1, (hC _ _ hin).2.1⟩]

end Trackeddy
