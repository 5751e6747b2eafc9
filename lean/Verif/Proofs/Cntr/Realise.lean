import Verif.Proofs.Cntr.AnyRounding
import Mathlib.Algebra.BigOperators.Group.Finset.Basic
import Mathlib.Order.Directed
namespace Trackeddy.Cntr

variable {K : Type} [Field K] [LinearOrder K] [IsStrictOrderedRing K]

/-- numbers whose sum over the corners of every cell is prescribed -/
def cornerFill (C : ℕ → ℕ → K) : ℕ → ℕ → K
  | 0, _ => 0
  | _ + 1, 0 => 0
  | i + 1, j + 1 => C i j - cornerFill C i (j + 1) - cornerFill C (i + 1) j - cornerFill C i j
termination_by i j => i + j

omit [LinearOrder K] [IsStrictOrderedRing K] in
theorem cornerFill_sum (C : ℕ → ℕ → K) (i j : ℕ) : cornerFill C (i + 1) (j + 1) + cornerFill C i (j + 1) +
    cornerFill C (i + 1) j + cornerFill C i j = C i j := by
  rw [cornerFill]; ring

theorem fill_bound (V : ℕ → ℕ → K) (a b : ℕ) : ∃ M : K, ∀ i < a, ∀ j < b, |V i j| < M := by
  obtain ⟨M, hM⟩ := ((Finset.range a ×ˢ Finset.range b).image fun p => |V p.1 p.2|).exists_le
  refine ⟨M + 1, fun i hi j hj => ?_⟩
  have := hM |V i j| (Finset.mem_image.mpr ⟨(i, j), by simp [hi, hj], rfl⟩)
  linarith

/-- values on the same side of the level everywhere, with prescribed means in the cells -/
def fillValue (m : Mesh K) (lev M : K) (V : ℕ → ℕ → K) (j i : ℕ) : K :=
  lev + (if m.high lev ((i + j * m.imax : ℕ) : Int) = true then M else -M) + if i < m.imax ∧ j < m.jmax then V i j else 0

/-- the array of these values, laid out by rows -/
def fillArr (m : Mesh K) (f : ℕ → ℕ → K) : Arr (Option K) := ⟨fun k => some (f (k.toNat / m.imax) (k.toNat % m.imax))⟩

theorem fill_high {m : Mesh K} {lev M : K} {V : ℕ → ℕ → K} (h0 : 0 < M) (hM : ∀ i < m.imax, ∀ j < m.jmax, |V i j| < M) (i j : ℕ) :
    (lev < fillValue m lev M V j i ↔ m.high lev ((i + j * m.imax : ℕ) : Int) = true) ∧ fillValue m lev M V j i ≠ lev := by
  unfold fillValue
  have hv : |if i < m.imax ∧ j < m.jmax then V i j else 0| < M := by
    split
    · rename_i h; exact hM i h.1 j h.2
    · simpa using h0
  generalize (if i < m.imax ∧ j < m.jmax then V i j else 0) = v at hv
  rw [abs_lt] at hv
  cases m.high lev ((i + j * m.imax : ℕ) : Int)
  · simp only [Bool.false_eq_true, if_false, iff_false, not_lt]
    exact ⟨by linarith, by intro h; linarith⟩
  · simp only [if_true, iff_true]
    exact ⟨by linarith, by intro h; linarith⟩

theorem fill_alike {m : Mesh K} {lev M : K} {V : ℕ → ℕ → K} (hneg : ∀ k : Int, m.high lev k = m.high lev (k.toNat : Int)) (h0 : 0 < M)
    (hM : ∀ i < m.imax, ∀ j < m.jmax, |V i j| < M) (x y : Arr K) : Alike m x y (fillArr m (fillValue m lev M V)) lev := by
  intro k
  rw [hneg k, Bool.eq_iff_iff]
  have := (fill_high (lev := lev) h0 hM (k.toNat % m.imax) (k.toNat / m.imax)).1
  rw [Nat.mod_add_div'] at this
  rw [← this]
  simp [Mesh.high, vary, fillArr]

theorem fill_at {m : Mesh K} {f : ℕ → ℕ → K} {i j : ℕ} (hi : i < m.imax) :
    fillArr m f (idx m.imax ((i : Int), (j : Int))) = some (f j i) := by
  have e : idx m.imax ((i : Int), (j : Int)) = ((i + j * m.imax : ℕ) : Int) := by unfold idx; push_cast; ring
  rw [e]
  unfold fillArr
  simp only [Int.toNat_natCast]
  rw [Nat.add_mul_div_right _ _ (by omega), Nat.add_mul_mod_self_right, Nat.div_eq_of_lt hi, Nat.mod_eq_of_lt hi, Nat.zero_add]

section
variable {m : Mesh K} {reg : Option (Nat → Bool)} {lev : K}

/-- the corners of a saddle cell -/
theorem isSad_corners {e : DE} (h : IsSad (mkTopo m reg lev) e) : ∃ a b : ℕ, e.zn = ((a : Int) + 1, (b : Int) + 1) ∧
    a + 1 < m.imax ∧ b + 1 < m.jmax ∧
    (mkTopo m reg lev).h ((a : Int) + 1, (b : Int) + 1) = (mkTopo m reg lev).h ((a : Int), (b : Int)) ∧
    (mkTopo m reg lev).h ((a : Int) + 1, (b : Int)) = (mkTopo m reg lev).h ((a : Int), (b : Int) + 1) ∧
    (mkTopo m reg lev).h ((a : Int) + 1, (b : Int)) = !(mkTopo m reg lev).h ((a : Int), (b : Int)) := by
  obtain ⟨hex, hcut, hq1, hq0⟩ := h
  have hz := (mkTopo_ok m reg lev).zone _ _ hex
  obtain ⟨a, ha⟩ := Int.eq_ofNat_of_zero_le (show 0 ≤ e.zn.1 - 1 by omega)
  obtain ⟨b, hb⟩ := Int.eq_ofNat_of_zero_le (show 0 ≤ e.zn.2 - 1 by omega)
  refine ⟨a, b, by ext <;> simp only <;> omega, by omega, by omega, ?_⟩
  clear hz hex
  obtain ⟨P, hP⟩ : ∃ P, P = (mkTopo m reg lev).h ((a : Int), (b : Int)) := ⟨_, rfl⟩
  obtain ⟨Q, hQ⟩ : ∃ P, P = (mkTopo m reg lev).h ((a : Int) + 1, (b : Int)) := ⟨_, rfl⟩
  obtain ⟨R, hR⟩ : ∃ P, P = (mkTopo m reg lev).h ((a : Int), (b : Int) + 1) := ⟨_, rfl⟩
  obtain ⟨S, hS⟩ : ∃ P, P = (mkTopo m reg lev).h ((a : Int) + 1, (b : Int) + 1) := ⟨_, rfl⟩
  rw [← hP, ← hQ, ← hR, ← hS]
  unfold Topo.cut at hcut
  rcases e with ⟨i, j, _ | _ | _ | _⟩ <;>
    simp only [DE.zn, DE.p0, DE.p1, DE.rev, DE.q0, DE.q1] at ha hb hcut hq1 hq0
  · obtain ⟨rfl, rfl⟩ : i = a ∧ j = b + 1 := by omega
    simp only [add_sub_cancel_right] at hcut hq1 hq0
    rw [← hP, ← hR] at hcut
    rw [← hR, ← hQ] at hq1
    rw [← hR, ← hS] at hq0
    clear * - hcut hq1 hq0; revert P Q R S; decide
  · obtain ⟨rfl, rfl⟩ : i = a + 1 ∧ j = b + 1 := by omega
    simp only [add_sub_cancel_right] at hcut hq1 hq0
    rw [← hQ, ← hS] at hcut
    rw [← hR, ← hQ] at hq1
    rw [← hP, ← hQ] at hq0
    clear * - hcut hq1 hq0; revert P Q R S; decide
  · obtain ⟨rfl, rfl⟩ : i = a + 1 ∧ j = b := by omega
    simp only [add_sub_cancel_right] at hcut hq1 hq0
    rw [← hQ, ← hP] at hcut
    rw [← hP, ← hS] at hq1
    rw [← hP, ← hR] at hq0
    clear * - hcut hq1 hq0; revert P Q R S; decide
  · obtain ⟨rfl, rfl⟩ : i = a + 1 ∧ j = b + 1 := by omega
    simp only [add_sub_cancel_right] at hcut hq1 hq0
    rw [← hS, ← hR] at hcut
    rw [← hP, ← hS] at hq1
    rw [← hQ, ← hS] at hq0
    clear * - hcut hq1 hq0; revert P Q R S; decide

/-- **other data** on the same side of the level everywhere, for which the means of the saddle cells decide as prescribed -/
theorem realise (hneg : ∀ k : Int, m.high lev k = m.high lev (k.toNat : Int)) {S : Arr (Option Bool)}
    (hS : Sadl m (mkTopo m reg lev) S) : ∃ f : ℕ → ℕ → K, (∀ j i, f j i ≠ lev) ∧
      ∀ x y, Alike m x y (fillArr m f) lev ∧ SadOK m (mkTopo (vary m x y (fillArr m f)) reg lev) S := by
  set C : ℕ → ℕ → K := fun i j => if S (idx m.imax ((i : Int) + 1, (j : Int) + 1)) = some true then 1 else -1 with hC
  set V := cornerFill C with hV
  obtain ⟨M, hM⟩ := fill_bound V m.imax m.jmax
  have hM' : ∀ i < m.imax, ∀ j < m.jmax, |V i j| < max M 1 := fun i hi j hj => lt_max_of_lt_left (hM i hi j hj)
  have h0 : (0 : K) < max M 1 := lt_max_of_lt_right one_pos
  refine ⟨fillValue m lev (max M 1) V, fun j i => (fill_high h0 hM' i j).2, fun x y => ⟨fill_alike hneg h0 hM' x y, ?_⟩⟩
  intro i j hb
  cases hs : S (idx m.imax (i, j)) with
  | none => exact Or.inl rfl
  | some g =>
    right
    obtain ⟨e, he, hz⟩ := hS i j hb (by rw [hs]; simp)
    obtain ⟨a, b, h1, h2, h3, h4, h5, h6⟩ := isSad_corners he
    rw [hz] at h1
    obtain ⟨rfl, rfl⟩ := Prod.mk.inj h1
    have hh : ∀ p q : ℕ, m.high lev ((p + q * m.imax : ℕ) : Int) = (mkTopo m reg lev).h ((p : Int), (q : Int)) := by
      intro p q
      have e : idx m.imax ((p : Int), (q : Int)) = ((p + q * m.imax : ℕ) : Int) := by unfold idx; push_cast; ring
      rw [← e]; rfl
    have v1 := fill_at (f := fillValue m lev (max M 1) V) (i := a + 1) (j := b + 1) h2
    have v2 := fill_at (f := fillValue m lev (max M 1) V) (i := a) (j := b + 1) (by omega : a < m.imax)
    have v3 := fill_at (f := fillValue m lev (max M 1) V) (i := a + 1) (j := b) h2
    have v4 := fill_at (f := fillValue m lev (max M 1) V) (i := a) (j := b) (by omega : a < m.imax)
    push_cast at v1 v2 v3
    have hsum := cornerFill_sum C a b
    rw [← hV] at hsum
    have hCg : C a b = if g = true then 1 else -1 := by rw [hC]; simp only [hs, Option.some.injEq]
    have : (mkTopo (vary m x y (fillArr m (fillValue m lev (max M 1) V))) reg lev).sad ((a : Int) + 1) ((b : Int) + 1) = g := by
      change centreHigh lev (fillArr m (fillValue m lev (max M 1) V) (idx m.imax ((a : Int) + 1, (b : Int) + 1)))
        (fillArr m (fillValue m lev (max M 1) V) (idx m.imax ((a : Int) + 1 - 1, (b : Int) + 1)))
        (fillArr m (fillValue m lev (max M 1) V) (idx m.imax ((a : Int) + 1, (b : Int) + 1 - 1)))
        (fillArr m (fillValue m lev (max M 1) V) (idx m.imax ((a : Int) + 1 - 1, (b : Int) + 1 - 1))) = g
      rw [add_sub_cancel_right, add_sub_cancel_right, v1, v2, v3, v4]
      unfold centreHigh
      simp only
      have hfour : fillValue m lev (max M 1) V (b + 1) (a + 1) + fillValue m lev (max M 1) V (b + 1) a +
          fillValue m lev (max M 1) V b (a + 1) + fillValue m lev (max M 1) V b a = 4 * lev + C a b := by
        unfold fillValue
        rw [if_pos (c := a + 1 < m.imax ∧ b + 1 < m.jmax) ⟨h2, h3⟩, if_pos (c := a < m.imax ∧ b + 1 < m.jmax) ⟨by omega, h3⟩,
          if_pos (c := a + 1 < m.imax ∧ b < m.jmax) ⟨h2, by omega⟩, if_pos (c := a < m.imax ∧ b < m.jmax) ⟨by omega, by omega⟩,
          hh, hh, hh, hh]
        push_cast
        rw [h4, ← h5, h6]
        cases (mkTopo m reg lev).h ((a : Int), (b : Int)) <;>
          simp only [Bool.not_false, Bool.not_true, if_true, Bool.false_eq_true, if_false] <;> linarith
      rw [hfour, hCg]
      cases g
      · simp only [Bool.false_eq_true, if_false, decide_eq_false_iff_not, not_lt]; linarith
      · simp only [if_true, decide_eq_true_eq]; linarith
    rw [this]

end
end Trackeddy.Cntr
