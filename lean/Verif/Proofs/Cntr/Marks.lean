import Verif.Proofs.Cntr.Init
import Verif.Proofs.Cntr.CycleMark
import Verif.Proofs.Cntr.Visit

/-!
The topology of a mesh and the facts about what `data_init` leaves for it.
-/
namespace Trackeddy.Cntr

variable {K : Type} [Field K] [LinearOrder K]

def mkTopo (m : Mesh K) (reg : Option (Nat → Bool)) (lev : K) : Topo where
  hi i j := m.high lev (idx m.imax (i, j))
  zone i j := decide (1 ≤ i ∧ i < m.imax ∧ 1 ≤ j ∧ j < m.jmax) && zf m reg (idx m.imax (i, j)).toNat
  sad i j := centreHigh lev (m.z (idx m.imax (i, j))) (m.z (idx m.imax (i - 1, j))) (m.z (idx m.imax (i, j - 1)))
    (m.z (idx m.imax (i - 1, j - 1)))

theorem mkTopo_ok (m : Mesh K) (reg : Option (Nat → Bool)) (lev : K) : TopoOK m lev (mkTopo m reg lev) := by
  refine ⟨fun p => rfl, ?_, fun i j => rfl⟩
  intro i j h
  unfold mkTopo at h
  simp only [Bool.and_eq_true, decide_eq_true_eq] at h
  exact h.1

/-- zones lie inside the mesh -/
def RegOK (m : Mesh K) (reg : Option (Nat → Bool)) : Prop :=
  ∀ q, q ≤ m.imax * m.jmax + m.imax → zf m reg q = true → q % m.imax ≠ 0 ∧ q < m.imax * m.jmax

theorem regOK_none (m : Mesh K) : RegOK m none := by
  intro q _ h
  unfold zf at h
  split at h
  · simp at h
  · rename_i hlt
    simp only [decide_eq_true_eq] at h
    obtain ⟨p, rfl⟩ : ∃ p, q = p + m.imax + 1 := ⟨q - m.imax - 1, by omega⟩
    have e : p + m.imax + 1 - m.imax - 1 = p := by omega
    rw [e] at h
    obtain ⟨h1, h2⟩ := h
    have hp := Nat.mod_add_div p m.imax
    have e2 : p + m.imax + 1 = (p % m.imax + 1) + m.imax * (p / m.imax + 1) := by
      rw [Nat.mul_add]; omega
    constructor
    · rw [e2, Nat.add_mul_mod_self_left, Nat.mod_eq_of_lt h1]; omega
    · rw [e2]
      calc p % m.imax + 1 + m.imax * (p / m.imax + 1) < m.imax + m.imax * (p / m.imax + 1) := by omega
        _ = m.imax * (p / m.imax + 1 + 1) := by rw [Nat.mul_add m.imax (p / m.imax + 1)]; omega
        _ ≤ m.imax * m.jmax := Nat.mul_le_mul_left _ (by omega)

/-! ### `mask_zones` -/

/-- `reg` after `n` rounds of the double loop -/
theorem maskFold {imax : Nat} {mask reg : Nat → Bool} (n k : Nat) :
    (List.range n).foldl (maskCell imax mask) reg k = true ↔
      reg k = true ∧ ¬ (k < n ∧ (k % imax = 0 ∨ k / imax = 0)) ∧
        ∀ a < n, mask a = true → k ≠ a ∧ k ≠ a + 1 ∧ k ≠ a + imax ∧ k ≠ a + imax + 1 := by
  induction n with
  | zero => simp
  | succ n ih =>
    simp only [List.range_succ, List.foldl_append, List.foldl_cons, List.foldl_nil]
    generalize (List.range n).foldl (maskCell imax mask) reg = u at ih ⊢
    have hstep : maskCell imax mask u n k = true ↔ u k = true ∧ ¬ (k = n ∧ (n % imax = 0 ∨ n / imax = 0)) ∧
        (mask n = true → k ≠ n ∧ k ≠ n + 1 ∧ k ≠ n + imax ∧ k ≠ n + imax + 1) := by
      unfold maskCell
      by_cases hm : mask n = true
      · rw [if_pos hm]
        clear ih
        simp only
        by_cases h1 : k = n ∨ k = n + 1 ∨ k = n + imax ∨ k = n + imax + 1
        · rw [if_pos h1]
          simp only [Bool.false_eq_true, false_iff]
          rintro ⟨_, _, h⟩
          have := h hm
          omega
        · rw [if_neg h1]
          by_cases h2 : k = n ∧ (n % imax = 0 ∨ n / imax = 0)
          · omega
          · rw [if_neg h2]
            exact ⟨fun h => ⟨h, h2, fun _ => by omega⟩, fun h => h.1⟩
      · rw [if_neg hm]
        clear ih
        by_cases h2 : k = n ∧ (n % imax = 0 ∨ n / imax = 0)
        · rw [if_pos h2]
          simp only [Bool.false_eq_true, false_iff]
          exact fun h => h.2.1 h2
        · rw [if_neg h2]
          exact ⟨fun h => ⟨h, h2, fun h' => absurd h' hm⟩, fun h => h.1⟩
    rw [hstep, ih]
    constructor
    · rintro ⟨⟨h1, h2, h3⟩, h4, h5⟩
      refine ⟨h1, ?_, ?_⟩
      · rintro ⟨hk, hh⟩
        rcases Nat.eq_or_lt_of_le (show k ≤ n by omega) with he | hlt
        · subst he; exact h4 ⟨rfl, hh⟩
        · exact h2 ⟨hlt, hh⟩
      · intro a ha hma
        rcases Nat.eq_or_lt_of_le (show a ≤ n by omega) with he | hlt
        · subst he; exact h5 hma
        · exact h3 a hlt hma
    · rintro ⟨h1, h2, h3⟩
      refine ⟨⟨h1, fun hh => h2 ⟨by omega, hh.2⟩, fun a ha => h3 a (by omega)⟩, ?_, h3 n (by omega)⟩
      rintro ⟨rfl, hh⟩
      exact h2 ⟨by omega, hh⟩

theorem maskZones_iff {imax jmax : Nat} {mask rjunk : Nat → Bool} {k : Nat} (hk : k ≤ imax * jmax + imax) :
    maskZones imax jmax mask rjunk k = true ↔ k < imax * jmax ∧ k % imax ≠ 0 ∧ imax < k ∧
      mask k = false ∧ mask (k - 1) = false ∧ mask (k - imax) = false ∧ mask (k - imax - 1) = false := by
  unfold maskZones
  split
  · simp only [Bool.false_eq_true, false_iff]
    omega
  · rename_i h
    have hlt : k < imax * jmax := by omega
    rw [maskFold]
    have hpos : 0 < imax := by
      by_contra h0
      have h0 : imax = 0 := by omega
      rw [h0] at hlt; simp at hlt
    constructor
    · rintro ⟨h1, h2, h3⟩
      have hm : k % imax ≠ 0 := fun hh => h2 ⟨hlt, Or.inl hh⟩
      have hd : k / imax ≠ 0 := fun hh => h2 ⟨hlt, Or.inr hh⟩
      have hge : imax ≤ k := by
        by_contra hlt'
        exact hd (Nat.div_eq_of_lt (by omega))
      have hgt : imax < k := by
        rcases Nat.eq_or_lt_of_le hge with he | h'
        · rw [← he] at hm; simp at hm
        · exact h'
      have hf : ∀ a, a < imax * jmax → (k = a ∨ k = a + 1 ∨ k = a + imax ∨ k = a + imax + 1) → mask a = false := by
        intro a ha hh
        cases hma : mask a
        · rfl
        · have := h3 a ha hma
          omega
      refine ⟨hlt, hm, hgt, hf k hlt (by omega), hf (k - 1) (by omega) (by omega), hf (k - imax) (by omega) (by omega),
        hf (k - imax - 1) (by omega) (by omega)⟩
    · rintro ⟨_, hm, hgt, m1, m2, m3, m4⟩
      refine ⟨?_, ?_, ?_⟩
      · rw [if_pos ⟨by omega, hlt⟩]
      · rintro ⟨_, hh | hh⟩
        · exact hm hh
        · have := (Nat.div_eq_zero_iff).mp hh
          omega
      · intro a ha hma
        refine ⟨?_, ?_, ?_, ?_⟩ <;> intro he
        · rw [← he] at hma; rw [m1] at hma; simp at hma
        · rw [show k - 1 = a by omega] at m2; rw [m2] at hma; simp at hma
        · rw [show k - imax = a by omega] at m3; rw [m3] at hma; simp at hma
        · rw [show k - imax - 1 = a by omega] at m4; rw [m4] at hma; simp at hma

theorem regOK_mask (m : Mesh K) (mask rjunk : Nat → Bool) : RegOK m (some (maskZones m.imax m.jmax mask rjunk)) := by
  intro q hq h
  unfold zf at h
  split at h
  · simp at h
  · have := (maskZones_iff hq).mp h
    exact ⟨this.2.1, this.1⟩

/-! ### coordinates -/

section
variable {m : Mesh K} {reg : Option (Nat → Bool)} {lev : K}

theorem idx_toNat {i j : Int} (hb : InBox m.imax m.jmax (i, j)) :
    (idx m.imax (i, j)).toNat = i.toNat + j.toNat * m.imax ∧ (idx m.imax (i, j)).toNat % m.imax = i.toNat ∧
      (idx m.imax (i, j)).toNat / m.imax = j.toNat ∧ ((idx m.imax (i, j)).toNat : Int) = idx m.imax (i, j) ∧
      (idx m.imax (i, j)).toNat < m.imax * m.jmax := by
  have hr := idx_range hb
  obtain ⟨h1, h2, h3, h4⟩ := hb
  simp only at h1 h2 h3 h4
  have hz : ((idx m.imax (i, j)).toNat : Int) = idx m.imax (i, j) := Int.toNat_of_nonneg hr.1
  have e : (idx m.imax (i, j)).toNat = i.toNat + j.toNat * m.imax := by
    have : ((i.toNat + j.toNat * m.imax : Nat) : Int) = idx m.imax (i, j) := by
      unfold idx
      push_cast
      rw [Int.toNat_of_nonneg h1, Int.toNat_of_nonneg h3]
    exact_mod_cast hz.trans this.symm
  refine ⟨e, ?_, ?_, hz, ?_⟩
  · rw [e, Nat.add_mul_mod_self_right, Nat.mod_eq_of_lt (by omega)]
  · rw [e, Nat.add_mul_div_right _ _ (by omega), Nat.div_eq_of_lt (by omega), Nat.zero_add]
  · have := hr.2
    have h : ((m.imax * m.jmax : Nat) : Int) = (m.imax : Int) * m.jmax := by push_cast; ring
    rw [← h] at this
    omega

theorem zf_zone (hr : RegOK m reg) {i j : Int} (hb : InBox m.imax m.jmax (i, j)) :
    zf m reg (idx m.imax (i, j)).toNat = (mkTopo m reg lev).zone i j := by
  obtain ⟨e1, e2, e3, e4, e5⟩ := idx_toNat hb
  unfold mkTopo
  simp only
  cases h : zf m reg (idx m.imax (i, j)).toNat
  · simp
  · have := hr _ (by omega) h
    obtain ⟨h1, h2, h3, h4⟩ := hb
    simp only at h1 h2 h3 h4
    have hj : (idx m.imax (i, j)).toNat / m.imax ≠ 0 := by
      intro h0
      have hlt : (idx m.imax (i, j)).toNat ≤ m.imax := by
        have := (Nat.div_eq_zero_iff).mp h0
        omega
      unfold zf at h
      rw [if_pos hlt] at h
      simp at h
    rw [e2] at this
    rw [e3] at hj
    simp only [Bool.and_true]
    symm
    rw [decide_eq_true_eq]
    omega

theorem zf_zone_right (hr : RegOK m reg) {i j : Int} (hb : InBox m.imax m.jmax (i, j)) :
    zf m reg ((idx m.imax (i, j)).toNat + 1) = (mkTopo m reg lev).zone (i + 1) j := by
  obtain ⟨e1, e2, e3, e4, e5⟩ := idx_toNat hb
  rcases lt_or_ge (i + 1) m.imax with hlt | hge
  · have hb' : InBox m.imax m.jmax (i + 1, j) := ⟨by simp only; have := hb.1; simp only at this; omega, hlt, hb.2.2.1, hb.2.2.2⟩
    rw [← zf_zone hr hb']
    congr 1
    have h : idx m.imax (i + 1, j) = idx m.imax (i, j) + 1 := by unfold idx; ring
    rw [h]
    omega
  · have h1 : (mkTopo m reg lev).zone (i + 1) j = false := by
      cases h : (mkTopo m reg lev).zone (i + 1) j
      · rfl
      · have := (mkTopo_ok m reg lev).zone _ _ h
        omega
    rw [h1]
    cases h : zf m reg ((idx m.imax (i, j)).toNat + 1)
    · rfl
    · have := (hr _ (by have h2 := hb.2.1; have h3 := hb.1; simp only at h2 h3; omega) h).1
      exfalso
      apply this
      have h2 := hb.2.1
      have h3 := hb.1
      simp only at h2 h3
      have : (idx m.imax (i, j)).toNat + 1 = (j.toNat + 1) * m.imax := by
        rw [e1, Nat.add_mul]; omega
      rw [this, Nat.mul_mod_left]

theorem zf_zone_above (hr : RegOK m reg) {i j : Int} (hb : InBox m.imax m.jmax (i, j)) :
    zf m reg ((idx m.imax (i, j)).toNat + m.imax) = (mkTopo m reg lev).zone i (j + 1) := by
  obtain ⟨e1, e2, e3, e4, e5⟩ := idx_toNat hb
  rcases lt_or_ge (j + 1) m.jmax with hlt | hge
  · have hb' : InBox m.imax m.jmax (i, j + 1) := ⟨hb.1, hb.2.1, by simp only; have := hb.2.2.1; simp only at this; omega, hlt⟩
    rw [← zf_zone hr hb']
    congr 1
    have h : idx m.imax (i, j + 1) = idx m.imax (i, j) + m.imax := by unfold idx; ring
    rw [h]
    omega
  · have h1 : (mkTopo m reg lev).zone i (j + 1) = false := by
      cases h : (mkTopo m reg lev).zone i (j + 1)
      · rfl
      · have := (mkTopo_ok m reg lev).zone _ _ h
        omega
    rw [h1]
    cases h : zf m reg ((idx m.imax (i, j)).toNat + m.imax)
    · rfl
    · have := (hr _ (by omega) h).2
      exfalso
      have h2 := hb.2.2.2
      have h3 := hb.2.2.1
      simp only at h2 h3
      have hj : j.toNat + 1 = m.jmax := by omega
      have : (idx m.imax (i, j)).toNat + m.imax = i.toNat + m.jmax * m.imax := by
        rw [e1, ← hj, Nat.add_mul]; omega
      rw [Nat.mul_comm] at this
      omega

theorem ideal_z {i j : Int} (hb : InBox m.imax m.jmax (i, j)) :
    ((ideal m reg lev) (idx m.imax (i, j))).z = (mkTopo m reg lev).h (i, j) := by
  obtain ⟨e1, e2, e3, e4, e5⟩ := idx_toNat hb
  unfold ideal zv Topo.h mkTopo
  simp only
  rw [e4]
  simp [e5]

/-- the final entry in coordinates -/
theorem F_coord (hr : RegOK m reg) {i j : Int} (hb : InBox m.imax m.jmax (i, j)) :
    let t := mkTopo m reg lev
    let c := F m reg lev (idx m.imax (i, j)).toNat
    c.z = t.h (i, j) ∧
    (c.iB = true ↔ i = 0 ∨ i + 1 = m.imax ∨ t.zone i j ≠ t.zone (i + 1) j) ∧
    (c.jB = true ↔ j = 0 ∨ j + 1 = m.jmax ∨ t.zone i j ≠ t.zone i (j + 1)) ∧
    (c.i1 = true ↔ 0 < j ∧ t.h (i, j) ≠ t.h (i, j - 1) ∧ t.zone (i + 1) j = true ∧
      (c.iB = true ∨ InnerStart t ⟨i, j, .R⟩)) ∧
    (c.i0 = true ↔ 0 < j ∧ t.h (i, j) ≠ t.h (i, j - 1) ∧ t.zone i j = true ∧
      (c.iB = true ∨ InnerStart t ⟨i, j, .L⟩)) ∧
    (c.j1 = true ↔ 0 < i ∧ t.h (i, j) ≠ t.h (i - 1, j) ∧ t.zone i (j + 1) = true ∧ c.jB = true) ∧
    (c.j0 = true ↔ 0 < i ∧ t.h (i, j) ≠ t.h (i - 1, j) ∧ t.zone i j = true ∧ c.jB = true) ∧
    c.opn = false := by
  obtain ⟨e1, e2, e3, e4, e5⟩ := idx_toNat hb
  have hz := zf_zone (lev := lev) hr hb
  have hzr := zf_zone_right (lev := lev) hr hb
  have hza := zf_zone_above (lev := lev) hr hb
  obtain ⟨b1, b2, b3, b4⟩ := hb
  have hb : InBox m.imax m.jmax (i, j) := ⟨b1, b2, b3, b4⟩
  simp only at b1 b2 b3 b4
  have hpos : (((idx m.imax (i, j)).toNat % m.imax : Nat) : Int) + (((idx m.imax (i, j)).toNat / m.imax : Nat) : Int) * (m.imax : Int)
      = idx m.imax (i, j) := by
    rw [e2, e3]
    unfold idx
    rw [Int.toNat_of_nonneg b1, Int.toNat_of_nonneg b3]
  have hib : ibF m reg (idx m.imax (i, j)).toNat = true ↔ i = 0 ∨ i + 1 = m.imax ∨
      (mkTopo m reg lev).zone i j ≠ (mkTopo m reg lev).zone (i + 1) j := by
    unfold ibF
    rw [e2, hz, hzr]
    simp only [Bool.or_eq_true, decide_eq_true_eq, bne_iff_ne]
    constructor
    · rintro ((h | h) | h)
      · left; omega
      · right; left; omega
      · exact Or.inr (Or.inr h)
    · rintro (h | h | h)
      · left; left; omega
      · left; right; omega
      · exact Or.inr h
  have hjb : jbF m reg (idx m.imax (i, j)).toNat = true ↔ j = 0 ∨ j + 1 = m.jmax ∨
      (mkTopo m reg lev).zone i j ≠ (mkTopo m reg lev).zone i (j + 1) := by
    unfold jbF
    rw [e3, hz, hza]
    simp only [Bool.or_eq_true, decide_eq_true_eq, bne_iff_ne]
    constructor
    · rintro ((h | h) | h)
      · left; omega
      · right; left; omega
      · exact Or.inr (Or.inr h)
    · rintro (h | h | h)
      · left; left; omega
      · left; right; omega
      · exact Or.inr h
  have g0 : (ideal m reg lev) (idx m.imax (i, j)) = { z := (mkTopo m reg lev).h (i, j), ex := (mkTopo m reg lev).zone i j } := by
    have := ideal_z (reg := reg) (lev := lev) hb
    rw [← this, ← hz]
    rfl
  have gex1 : ((ideal m reg lev) (idx m.imax (i, j) + 1)).ex = (mkTopo m reg lev).zone (i + 1) j := by
    rw [← hzr]
    unfold ideal
    simp only
    congr 1
    omega
  have gexa : ((ideal m reg lev) (idx m.imax (i, j) + m.imax)).ex = (mkTopo m reg lev).zone i (j + 1) := by
    rw [← hza]
    unfold ideal
    simp only
    congr 1
    omega
  have gb : 0 < j → ((ideal m reg lev) (idx m.imax (i, j) - m.imax)).z = (mkTopo m reg lev).h (i, j - 1) := by
    intro h0
    rw [← ideal_z (m := m) (i := i) (j := j - 1) ⟨b1, b2, by simp only; omega, by simp only; omega⟩]
    congr 2
    unfold idx; ring
  have ga : 0 < i → ((ideal m reg lev) (idx m.imax (i, j) - 1)).z = (mkTopo m reg lev).h (i - 1, j) := by
    intro h0
    rw [← ideal_z (m := m) (i := i - 1) (j := j) ⟨by simp only; omega, by simp only; omega, b3, b4⟩]
    congr 2
    unfold idx; ring
  have gc : i + 1 < m.imax → ((ideal m reg lev) (idx m.imax (i, j) + 1)).z = (mkTopo m reg lev).h (i + 1, j) := by
    intro h0
    rw [← ideal_z (m := m) (i := i + 1) (j := j) ⟨by simp only; omega, h0, b3, b4⟩]
    congr 2
    unfold idx; ring
  have gd : i + 1 < m.imax → 0 < j → ((ideal m reg lev) (idx m.imax (i, j) - m.imax + 1)).z =
      (mkTopo m reg lev).h (i + 1, j - 1) := by
    intro h0 h1
    rw [← ideal_z (m := m) (i := i + 1) (j := j - 1) ⟨by simp only; omega, h0, by simp only; omega, by simp only; omega⟩]
    congr 2
    unfold idx; ring
  have hjn : (0 < (idx m.imax (i, j)).toNat / m.imax) ↔ 0 < j := by rw [e3]; omega
  have hin : (0 < (idx m.imax (i, j)).toNat % m.imax) ↔ 0 < i := by rw [e2]; omega
  have hinner : ibF m reg (idx m.imax (i, j)).toNat = false → 0 < i ∧ i + 1 < m.imax := by
    intro h
    have := mt hib.mpr (by rw [h]; simp)
    push Not at this
    omega
  intro t c
  have hc1 : c.z = t.h (i, j) := by
    change (F m reg lev (idx m.imax (i, j)).toNat).z = (mkTopo m reg lev).h (i, j)
    rw [F_z, ← ideal_z (reg := reg) hb]
    rfl
  have hcib : c.iB = ibF m reg (idx m.imax (i, j)).toNat := rfl
  have hcjb : c.jB = jbF m reg (idx m.imax (i, j)).toNat := rfl
  refine ⟨hc1, by rw [hcib]; exact hib, by rw [hcjb]; exact hjb, ?_, ?_, ?_, ?_, ?_⟩
  · rw [hcib]
    change (F m reg lev (idx m.imax (i, j)).toNat).i1 = true ↔ _
    unfold F initMarks
    simp only [hpos, hjn, g0, gex1]
    by_cases h0 : 0 < j
    · rw [gb h0]
      by_cases hne : (mkTopo m reg lev).h (i, j) ≠ (mkTopo m reg lev).h (i, j - 1)
      · rw [if_pos ⟨h0, hne⟩]
        cases hibb : ibF m reg (idx m.imax (i, j)).toNat
        · obtain ⟨h1, h2⟩ := hinner hibb
          rw [ga h1, gc h2, gd h2 h0]
          simp only [Bool.false_eq_true, if_false, decide_eq_true_eq, false_or, InnerStart, reduceCtorEq, false_and, or_false, true_and]
          change _ ↔ 0 < j ∧ (mkTopo m reg lev).h (i, j) ≠ (mkTopo m reg lev).h (i, j - 1) ∧ (mkTopo m reg lev).zone (i + 1) j = true ∧
            (mkTopo m reg lev).h (i, j) = true ∧ (mkTopo m reg lev).h (i, j - 1) = false ∧ (mkTopo m reg lev).h (i - 1, j) = false ∧
            ((mkTopo m reg lev).h (i + 1, j) = false ∨ (mkTopo m reg lev).h (i + 1, j - 1) = false)
          clear hc1 ga gb gc gd g0 gex1 gexa hib hjb hcib hcjb hz hzr hza hibb
          generalize (mkTopo m reg lev).h (i, j) = u at hne ⊢
          generalize (mkTopo m reg lev).h (i, j - 1) = v at hne ⊢
          generalize (mkTopo m reg lev).h (i - 1, j) = w
          generalize (mkTopo m reg lev).h (i + 1, j) = w2
          generalize (mkTopo m reg lev).h (i + 1, j - 1) = w3
          generalize (mkTopo m reg lev).zone _ j = w4
          clear_value t c
          clear t c
          revert hne
          cases u <;> cases v <;> cases w <;> cases w2 <;> cases w3 <;> cases w4 <;> simp [h0]
        · simp [h0, hne, t]
      · rw [if_neg (fun h => hne h.2)]
        simp only [Bool.false_eq_true, false_iff]
        exact fun h => hne h.2.1
    · rw [if_neg (fun h => h0 h.1)]
      simp only [Bool.false_eq_true, false_iff]
      exact fun h => h0 h.1
  · rw [hcib]
    change (F m reg lev (idx m.imax (i, j)).toNat).i0 = true ↔ _
    unfold F initMarks
    simp only [hpos, hjn, g0, gex1]
    by_cases h0 : 0 < j
    · rw [gb h0]
      by_cases hne : (mkTopo m reg lev).h (i, j) ≠ (mkTopo m reg lev).h (i, j - 1)
      · rw [if_pos ⟨h0, hne⟩]
        cases hibb : ibF m reg (idx m.imax (i, j)).toNat
        · obtain ⟨h1, h2⟩ := hinner hibb
          rw [ga h1, gc h2, gd h2 h0]
          simp only [Bool.false_eq_true, if_false, decide_eq_true_eq, false_or, InnerStart, reduceCtorEq, false_and, or_false, true_and]
          change _ ↔ 0 < j ∧ (mkTopo m reg lev).h (i, j) ≠ (mkTopo m reg lev).h (i, j - 1) ∧ (mkTopo m reg lev).zone i j = true ∧
            (mkTopo m reg lev).h (i, j) = false ∧ (mkTopo m reg lev).h (i, j - 1) = true ∧ (mkTopo m reg lev).h (i - 1, j) = true ∧
            ((mkTopo m reg lev).h (i + 1, j) = true ∨ (mkTopo m reg lev).h (i + 1, j - 1) = true)
          clear hc1 ga gb gc gd g0 gex1 gexa hib hjb hcib hcjb hz hzr hza hibb
          generalize (mkTopo m reg lev).h (i, j) = u at hne ⊢
          generalize (mkTopo m reg lev).h (i, j - 1) = v at hne ⊢
          generalize (mkTopo m reg lev).h (i - 1, j) = w
          generalize (mkTopo m reg lev).h (i + 1, j) = w2
          generalize (mkTopo m reg lev).h (i + 1, j - 1) = w3
          generalize (mkTopo m reg lev).zone _ j = w4
          clear_value t c
          clear t c
          revert hne
          cases u <;> cases v <;> cases w <;> cases w2 <;> cases w3 <;> cases w4 <;> simp [h0]
        · simp [h0, hne, t]
      · rw [if_neg (fun h => hne h.2)]
        simp only [Bool.false_eq_true, false_iff]
        exact fun h => hne h.2.1
    · rw [if_neg (fun h => h0 h.1)]
      simp only [Bool.false_eq_true, false_iff]
      exact fun h => h0 h.1
  · rw [hcjb]
    change (F m reg lev (idx m.imax (i, j)).toNat).j1 = true ↔ _
    unfold F initMarks
    simp only [hpos, hin, g0, gexa]
    by_cases h0 : 0 < i
    · rw [ga h0]
      by_cases hh : 0 < i ∧ jbF m reg (idx m.imax (i, j)).toNat = true ∧ (mkTopo m reg lev).h (i, j) ≠ (mkTopo m reg lev).h (i - 1, j)
      · rw [if_pos hh]
        simp only
        constructor
        · intro h; exact ⟨h0, hh.2.2, h, hh.2.1⟩
        · intro h; exact h.2.2.1
      · rw [if_neg hh]
        simp only [Bool.false_eq_true, false_iff]
        exact fun h => hh ⟨h0, h.2.2.2, h.2.1⟩
    · rw [if_neg (fun h => h0 h.1)]
      simp only [Bool.false_eq_true, false_iff]
      exact fun h => h0 h.1
  · rw [hcjb]
    change (F m reg lev (idx m.imax (i, j)).toNat).j0 = true ↔ _
    unfold F initMarks
    simp only [hpos, hin, g0, gexa]
    by_cases h0 : 0 < i
    · rw [ga h0]
      by_cases hh : 0 < i ∧ jbF m reg (idx m.imax (i, j)).toNat = true ∧ (mkTopo m reg lev).h (i, j) ≠ (mkTopo m reg lev).h (i - 1, j)
      · rw [if_pos hh]
        simp only
        constructor
        · intro h; exact ⟨h0, hh.2.2, h, hh.2.1⟩
        · intro h; exact h.2.2.1
      · rw [if_neg hh]
        simp only [Bool.false_eq_true, false_iff]
        exact fun h => hh ⟨h0, h.2.2.2, h.2.1⟩
    · rw [if_neg (fun h => h0 h.1)]
      simp only [Bool.false_eq_true, false_iff]
      exact fun h => h0 h.1
  · rfl

end
end Trackeddy.Cntr
