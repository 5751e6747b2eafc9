import Verif.Proofs.Cntr.Loop1
import Mathlib.Algebra.Order.BigOperators.Group.Finset

/-!
What `data_init` writes, whatever the memory held before.
-/
namespace Trackeddy.Cntr

variable {K : Type} [Field K] [LinearOrder K]

/-- zone existence by position -/
def zf (m : Mesh K) (reg : Option (Nat → Bool)) (q : Nat) : Bool :=
  if q ≤ m.imax then false else
  match reg with
  | some r => r q
  | none => decide ((q - m.imax - 1) % m.imax + 1 < m.imax ∧ (q - m.imax - 1) / m.imax + 1 < m.jmax)

/-- the value bit by position -/
def zv (m : Mesh K) (lev : K) (q : Nat) : Bool := decide (q < m.imax * m.jmax) && m.high lev (q : Int)

/-- the array with values and zones only -/
def ideal (m : Mesh K) (reg : Option (Nat → Bool)) (lev : K) : Arr Cell :=
  ⟨fun p => { z := zv m lev p.toNat, ex := zf m reg p.toNat }⟩

def ibF (m : Mesh K) (reg : Option (Nat → Bool)) (q : Nat) : Bool :=
  decide (q % m.imax = 0 ∨ q % m.imax + 1 = m.imax) || (zf m reg q != zf m reg (q + 1))

def jbF (m : Mesh K) (reg : Option (Nat → Bool)) (q : Nat) : Bool :=
  decide (q / m.imax = 0 ∨ q / m.imax + 1 = m.jmax) || (zf m reg q != zf m reg (q + m.imax))

/-- the final entry -/
def F (m : Mesh K) (reg : Option (Nat → Bool)) (lev : K) (q : Nat) : Cell :=
  (initMarks m.imax (ibF m reg q) (jbF m reg q) (q % m.imax) (q / m.imax) (ideal m reg lev)).1

theorem F_z (m : Mesh K) (reg : Option (Nat → Bool)) (lev : K) (q : Nat) : (F m reg lev q).z = zv m lev q := by
  unfold F initMarks ideal
  simp only
  have : (((q % m.imax : Nat) : Int) + ((q / m.imax : Nat) : Int) * (m.imax : Int)).toNat = q := by
    have h := Nat.mod_add_div q m.imax
    rw [Nat.mul_comm] at h
    have h2 : ((q % m.imax : Nat) : Int) + ((q / m.imax : Nat) : Int) * (m.imax : Int) = (q : Int) := by
      exact_mod_cast h
    rw [h2]; simp
  rw [this]

theorem initMarks_bits (imax : Nat) (ib jb : Bool) (i j : Nat) (data : Arr Cell) :
    (initMarks imax ib jb i j data).2 = (initMarks imax ib jb i j data).1.bits := rfl

theorem initMarks_congr {imax : Nat} {ib jb : Bool} {i j : Nat} {data g : Arr Cell}
    (hc : data ((i : Int) + j * imax) = g ((i : Int) + j * imax))
    (h1 : 0 < j → (data ((i : Int) + j * imax - imax)).z = (g ((i : Int) + j * imax - imax)).z)
    (h2 : 0 < i → (data ((i : Int) + j * imax - 1)).z = (g ((i : Int) + j * imax - 1)).z)
    (h3 : data ((i : Int) + j * imax + 1) = g ((i : Int) + j * imax + 1))
    (h4 : 0 < j → ib = false → (data ((i : Int) + j * imax - imax + 1)).z = (g ((i : Int) + j * imax - imax + 1)).z)
    (h5 : 0 < i → (data ((i : Int) + j * imax + imax)).ex = (g ((i : Int) + j * imax + imax)).ex)
    (hib : ib = false → 0 < i) :
    initMarks imax ib jb i j data = initMarks imax ib jb i j g := by
  unfold initMarks
  simp only
  rw [hc, h3]
  rcases Nat.eq_zero_or_pos j with hj | hj
  · rcases Nat.eq_zero_or_pos i with hi | hi
    · simp only [hi, hj, lt_self_iff_false, false_and, if_false]
    · rw [h2 hi, h5 hi]
      simp only [hj, lt_self_iff_false, false_and, if_false]
  · rw [h1 hj]
    rcases Nat.eq_zero_or_pos i with hi | hi
    · cases ib
      · have := hib rfl; omega
      · simp only [hi, lt_self_iff_false, false_and, if_false, if_true]
    · rw [h2 hi, h5 hi]
      cases ib
      · rw [h4 hj rfl]
      · simp only [if_true]

/-! ### the loops -/

structure Done (m : Mesh K) (reg : Option (Nat → Bool)) (lev : K) (k : Nat) (fl : Option Nat) (s : Init) : Prop where
  before : ∀ q < k, s.data (q : Int) = { F m reg lev q with row := decide (∃ j, fl = some j ∧ q = j * m.imax) }
  here : k < m.imax * m.jmax ∨ 0 < k → s.data (k : Int) = { z := zv m lev k, ex := zf m reg k }
  ahead : ∀ q, k < q → q ≤ k + m.imax → m.imax < q → s.data (q : Int) = { ex := zf m reg q }
  count : s.count = ∑ q ∈ Finset.range k, (F m reg lev q).bits

theorem initFlags_spec {m : Mesh K} {reg : Option (Nat → Bool)} {lev : K} {i j : Nat} (hi : i < m.imax)
    {k : Nat} (hk : k = i + j * m.imax) (data : Arr Cell)
    (ahead : ∀ q, k < q → q ≤ k + m.imax → m.imax < q → data (q : Int) = { ex := zf m reg q }) :
    initFlags m reg lev i j data ((k + 1 : Nat) : Int) = { z := zv m lev (k + 1), ex := zf m reg (k + 1) } ∧
    initFlags m reg lev i j data ((k + m.imax + 1 : Nat) : Int) = { ex := zf m reg (k + m.imax + 1) } ∧
    ∀ p : Int, p ≠ ((k + 1 : Nat) : Int) → p ≠ ((k + m.imax + 1 : Nat) : Int) → initFlags m reg lev i j data p = data p := by
  have hij : ((i : Int) + (j : Int) * (m.imax : Int)) = (k : Int) := by rw [hk]; push_cast; ring
  have hz : regFlag m reg i j = zf m reg (k + m.imax + 1) := by
    unfold zf regFlag
    rw [if_neg (by omega)]
    cases reg with
    | some r => simp only [hk]
    | none =>
      simp only
      have h1 : (k + m.imax + 1 - m.imax - 1) = i + j * m.imax := by omega
      rw [h1, Nat.add_mul_mod_self_right, Nat.mod_eq_of_lt hi, Nat.add_mul_div_right _ _ (by omega), Nat.div_eq_of_lt hi]
      congr 2
      simp
  unfold initFlags
  simp only [hij, hz]
  have e1 : ((k + m.imax + 1 : Nat) : Int) = (k : Int) + m.imax + 1 := by push_cast; ring
  have e2 : ((k + 1 : Nat) : Int) = (k : Int) + 1 := by push_cast; ring
  rw [e1, e2]
  have hne : ¬ ((k : Int) + 1 = (k : Int) + m.imax + 1) := by omega
  have hne' : ¬ ((k : Int) + m.imax + 1 = (k : Int) + 1) := by omega
  set d1 := upd data ((k : Int) + m.imax + 1) ({ ex := zf m reg (k + m.imax + 1) } : Cell) with hd1
  set d2 : Arr Cell := if (k : Int) < m.imax then upd d1 ((k : Int) + 1) {} else d1 with hd2
  have d2a : d2 ((k : Int) + 1) = { ex := zf m reg (k + 1) } := by
    rw [hd2]
    split
    · rename_i h
      have : zf m reg (k + 1) = false := by unfold zf; rw [if_pos (by omega)]
      simp [upd, this]
    · rename_i h
      rw [hd1]
      simp only [upd, if_neg hne]
      have := ahead (k + 1) (by omega) (by omega) (by omega)
      rw [e2] at this
      exact this
  have d2b : ∀ p : Int, p ≠ (k : Int) + 1 → d2 p = d1 p := by
    intro p hp
    rw [hd2]
    split
    · simp only [upd, if_neg hp]
    · rfl
  have hzv : zv m lev (k + 1) = decide ((k : Int) < m.ijmax - 1 ∧ m.high lev ((k : Int) + 1) = true) := by
    unfold zv Mesh.ijmax
    rw [e2]
    have : (k + 1 < m.imax * m.jmax) ↔ ((k : Int) < (m.imax : Int) * (m.jmax : Int) - 1) := by
      have h : ((m.imax * m.jmax : Nat) : Int) = (m.imax : Int) * (m.jmax : Int) := by push_cast; ring
      rw [← h]; omega
    simp only [this]
    cases m.high lev ((k : Int) + 1) <;> simp
  by_cases hh : (k : Int) < m.ijmax - 1 ∧ m.high lev ((k : Int) + 1) = true
  · rw [if_pos hh]
    rw [decide_eq_true hh] at hzv
    refine ⟨?_, ?_, ?_⟩
    · simp only [upd, if_true]
      rw [d2a, hzv]
    · simp only [upd, if_neg hne']
      rw [d2b _ hne', hd1]
      simp [upd]
    · intro p hp hp'
      simp only [upd, if_neg hp]
      rw [d2b p hp, hd1]
      simp only [upd, if_neg hp']
  · rw [if_neg hh]
    rw [decide_eq_false hh] at hzv
    refine ⟨?_, ?_, ?_⟩
    · rw [d2a, hzv]
    · rw [d2b _ hne', hd1]
      simp [upd]
    · intro p hp hp'
      rw [d2b p hp, hd1]
      simp only [upd, if_neg hp']

theorem initCell_done {m : Mesh K} {reg : Option (Nat → Bool)} {lev : K} {i j : Nat} (hi : i < m.imax) (hj : j < m.jmax)
    {fl : Option Nat} (hfl : ∀ a, fl = some a → a < j) {s : Init} (h : Done m reg lev (i + j * m.imax) fl s)
    (hic : s.ichunk = if i = 0 then 0 else (m.imax : Int) - 1) (hjc : s.jchunk = if j = 0 then 0 else (m.jmax : Int) - 1) :
    Done m reg lev (i + 1 + j * m.imax) fl (initCell m reg lev j s i) ∧
      (i + 1 < m.imax → (initCell m reg lev j s i).ichunk = (m.imax : Int) - 1) ∧
      (initCell m reg lev j s i).jchunk = s.jchunk ∧ (initCell m reg lev j s i).started = s.started := by
  obtain ⟨k, hk⟩ : ∃ k, k = i + j * m.imax := ⟨_, rfl⟩
  rw [← hk] at h
  have hij : ((i : Int) + (j : Int) * (m.imax : Int)) = (k : Int) := by rw [hk]; push_cast; ring
  have hmod : k % m.imax = i := by rw [hk, Nat.add_mul_mod_self_right, Nat.mod_eq_of_lt hi]
  have hdiv : k / m.imax = j := by rw [hk, Nat.add_mul_div_right _ _ (by omega), Nat.div_eq_of_lt hi, Nat.zero_add]
  have hklt : k < m.imax * m.jmax := by
    rw [hk]
    have : (j + 1) * m.imax ≤ m.jmax * m.imax := Nat.mul_le_mul_right _ hj
    rw [Nat.add_mul] at this
    rw [Nat.mul_comm m.imax m.jmax]
    omega
  have hk1 : i + 1 + j * m.imax = k + 1 := by omega
  rw [hk1]
  obtain ⟨f1, f2, f3⟩ := initFlags_spec (lev := lev) hi hk s.data h.ahead
  set d := initFlags m reg lev i j s.data with hd
  have dk : d (k : Int) = { z := zv m lev k, ex := zf m reg k } := by
    rw [f3 _ (by omega) (by omega)]; exact h.here (Or.inl hklt)
  have dbefore : ∀ q < k, d (q : Int) = s.data (q : Int) := fun q hq => f3 _ (by omega) (by omega)
  have dz : ∀ q < k, (d (q : Int)).z = zv m lev q := by
    intro q hq
    rw [dbefore q hq, h.before q hq]
    exact F_z m reg lev q
  have dimax : 0 < k → (d ((k + m.imax : Nat) : Int)).ex = zf m reg (k + m.imax) := by
    intro h0
    rcases Nat.eq_or_lt_of_le (show 1 ≤ m.imax by omega) with h1 | h1
    · rw [← h1, f1]
    · rw [f3 _ (by omega) (by omega), h.ahead (k + m.imax) (by omega) (by omega) (by omega)]
  have hib : (decide ((i : Int) = s.ichunk) || ((d (k : Int)).ex != (d ((k : Int) + 1)).ex)) = ibF m reg k := by
    have e2 : ((k + 1 : Nat) : Int) = (k : Int) + 1 := by push_cast; ring
    rw [← e2, dk, f1, hic]
    unfold ibF
    rw [hmod]
    congr 1
    by_cases h0 : i = 0
    · simp [h0]
    · rw [if_neg h0]
      simp only [h0, false_or]
      congr 1
      apply propext
      omega
  have hjb : (decide ((j : Int) = s.jchunk) || ((d (k : Int)).ex != (d ((k : Int) + m.imax)).ex)) = jbF m reg k := by
    have e2 : ((k + m.imax : Nat) : Int) = (k : Int) + m.imax := by push_cast; ring
    unfold jbF
    rw [hdiv, hjc]
    by_cases h0 : j = 0
    · simp [h0]
    · rw [if_neg h0, ← e2, dk, dimax (by rw [hk]; have := Nat.mul_pos (show 0 < j by omega) (show 0 < m.imax by omega); omega)]
      simp only [h0, false_or]
      congr 2
      apply propext
      omega
  have hid : ∀ q : Nat, (ideal m reg lev) (q : Int) = { z := zv m lev q, ex := zf m reg q } := by
    intro q; unfold ideal; simp
  have e1 : ((k + 1 : Nat) : Int) = (k : Int) + 1 := by push_cast; ring
  have hmk : initMarks m.imax (ibF m reg k) (jbF m reg k) i j d =
      initMarks m.imax (ibF m reg k) (jbF m reg k) i j (ideal m reg lev) := by
    apply initMarks_congr
    · rw [hij, dk, hid]
    · intro h0
      have hle : m.imax ≤ j * m.imax := Nat.le_mul_of_pos_left _ h0
      rw [hij, show (k : Int) - m.imax = ((k - m.imax : Nat) : Int) by omega, dz _ (by omega), hid]
    · intro h0
      rw [hij, show (k : Int) - 1 = ((k - 1 : Nat) : Int) by omega, dz _ (by omega), hid]
    · rw [hij, ← e1, f1, hid]
    · intro h0 hibf
      have hle : m.imax ≤ j * m.imax := Nat.le_mul_of_pos_left _ h0
      have h2 : 2 ≤ m.imax := by
        by_contra hc
        unfold ibF at hibf
        rw [hmod] at hibf
        have : i = 0 := by omega
        simp [this] at hibf
      rw [hij, show (k : Int) - m.imax + 1 = ((k - m.imax + 1 : Nat) : Int) by omega, dz _ (by omega), hid]
    · intro h0
      rw [hij, show (k : Int) + m.imax = ((k + m.imax : Nat) : Int) by omega, dimax (by omega), hid]
    · intro hibf
      by_contra hc
      unfold ibF at hibf
      rw [hmod] at hibf
      have : i = 0 := by omega
      simp [this] at hibf
  have hF : initMarks m.imax (ibF m reg k) (jbF m reg k) i j (ideal m reg lev) =
      (F m reg lev k, (F m reg lev k).bits) := by
    unfold F
    rw [hmod, hdiv]
    rfl
  have hcell : initCell m reg lev j s i =
      { data := upd d (k : Int) (F m reg lev k)
        count := s.count + (F m reg lev k).bits
        started := s.started
        ichunk := if (i : Int) = s.ichunk then s.ichunk + (m.imax - 1) + (if s.ichunk ≥ m.imax then 1 else 0) else s.ichunk
        jchunk := s.jchunk } := by
    unfold initCell
    simp only [hij, ← hd]
    rw [hib, hjb, hmk, hF]
  rw [hcell]
  refine ⟨⟨?_, ?_, ?_, ?_⟩, ?_, rfl, rfl⟩
  · intro q hq
    simp only [upd]
    rcases Nat.eq_or_lt_of_le (show q ≤ k by omega) with he | hlt
    · rw [he, if_pos rfl]
      have : ¬ ∃ a, fl = some a ∧ k = a * m.imax := by
        rintro ⟨a, ha, hka⟩
        have h1 := hfl a ha
        have h2 : (a + 1) * m.imax ≤ j * m.imax := Nat.mul_le_mul_right _ h1
        rw [Nat.add_mul] at h2
        omega
      rw [decide_eq_false this]
      have hrow : (F m reg lev k).row = false := by
        unfold F initMarks ideal; rfl
      rw [← hrow]
    · rw [if_neg (by omega), dbefore q hlt, h.before q hlt]
  · intro _
    simp only [upd]
    rw [if_neg (by omega), f1]
  · intro q h1 h2 h3
    simp only [upd]
    rw [if_neg (by omega)]
    rcases Nat.eq_or_lt_of_le h2 with he | hlt
    · rw [he, show k + 1 + m.imax = k + m.imax + 1 by omega, f2]
    · rw [f3 _ (by omega) (by omega)]
      exact h.ahead q (by omega) (by omega) h3
  · simp only
    rw [Finset.sum_range_succ, h.count]
  · intro hlt
    simp only
    rw [hic]
    by_cases h0 : i = 0
    · simp only [h0, if_true, Nat.cast_zero]
      rw [if_neg (by omega)]
      omega
    · simp only [h0, if_false]
      rw [if_neg (by omega)]

theorem initCells_done {m : Mesh K} {reg : Option (Nat → Bool)} {lev : K} {j : Nat} (hj : j < m.jmax)
    {fl : Option Nat} (hfl : ∀ a, fl = some a → a < j) {s : Init} (h : Done m reg lev (j * m.imax) fl s)
    (hic : s.ichunk = 0) (hjc : s.jchunk = if j = 0 then 0 else (m.jmax : Int) - 1) (n : Nat) (hn : n ≤ m.imax) :
    let s' := (List.range n).foldl (initCell m reg lev j) s
    Done m reg lev (n + j * m.imax) fl s' ∧ s'.jchunk = s.jchunk ∧ s'.started = s.started ∧
      (n < m.imax → s'.ichunk = if n = 0 then 0 else (m.imax : Int) - 1) := by
  induction n with
  | zero =>
    simp only [List.range_zero, List.foldl_nil, Nat.zero_add]
    exact ⟨h, by simp, by simp, fun _ => hic⟩
  | succ n ih =>
    obtain ⟨h1, h2, h3, h4⟩ := ih (by omega)
    simp only [List.range_succ, List.foldl_append, List.foldl_cons, List.foldl_nil]
    obtain ⟨g1, g2, g3, g4⟩ := initCell_done (by omega) hj hfl h1 (h4 (by omega)) (by rw [h2]; exact hjc)
    refine ⟨g1, g3.trans h2, g4.trans h3, fun hlt => ?_⟩
    rw [if_neg (by omega)]
    exact g2 hlt

/-- after the rows before `j` -/
structure Rows (m : Mesh K) (reg : Option (Nat → Bool)) (lev : K) (j : Nat) (fl : Option Nat) (s : Init) : Prop where
  done : Done m reg lev (j * m.imax) fl s
  fl_lt : ∀ a, fl = some a → a < j ∧ ∑ q ∈ Finset.range (a * m.imax), (F m reg lev q).bits = 0
  none : fl = none ↔ s.count = 0
  started : s.started = fl.isSome
  jchunk : j < m.jmax → s.jchunk = if j = 0 then 0 else (m.jmax : Int) - 1

theorem bits_nonneg (c : Cell) : 0 ≤ c.bits := by
  unfold Cell.bits; split_ifs <;> simp

theorem initRow_rows {m : Mesh K} {reg : Option (Nat → Bool)} {lev : K} {j : Nat} (hj : j < m.jmax)
    {fl : Option Nat} {s : Init} (h : Rows m reg lev j fl s) :
    ∃ fl', Rows m reg lev (j + 1) fl' (initRow m reg lev s j) := by
  have hd0 : Done m reg lev (j * m.imax) fl { s with ichunk := 0 } := ⟨h.done.before, h.done.here, h.done.ahead, h.done.count⟩
  obtain ⟨h1, h2, h3, _⟩ := initCells_done hj (fun a ha => (h.fl_lt a ha).1) hd0 rfl (h.jchunk hj) m.imax le_rfl
  have hmono : s.count ≤ ((List.range m.imax).foldl (initCell m reg lev j) { s with ichunk := 0 }).count := by
    rw [h1.count, h.done.count]
    exact Finset.sum_le_sum_of_subset_of_nonneg (by intro a ha; simp only [Finset.mem_range] at *; omega)
      (fun _ _ _ => bits_nonneg _)
  have hnn : 0 ≤ s.count := by
    rw [h.done.count]; exact Finset.sum_nonneg fun _ _ => bits_nonneg _
  set s1 := (List.range m.imax).foldl (initCell m reg lev j) { s with ichunk := 0 } with hs1
  have hk : m.imax + j * m.imax = (j + 1) * m.imax := by rw [Nat.add_mul]; omega
  rw [hk] at h1
  simp only at h2 h3
  unfold initRow
  simp only [← hs1]
  set s2 : Init := if (j : Int) = s1.jchunk then
      { s1 with jchunk := s1.jchunk + (m.jmax - 1) + (if s1.jchunk ≥ m.jmax then 1 else 0) } else s1 with hs2
  have e1 : s2.data = s1.data := by rw [hs2]; split <;> rfl
  have e2 : s2.count = s1.count := by rw [hs2]; split <;> rfl
  have e3 : s2.started = s1.started := by rw [hs2]; split <;> rfl
  have e4 : j + 1 < m.jmax → s2.jchunk = (m.jmax : Int) - 1 := by
    intro hlt
    have hj1 : s1.jchunk = if j = 0 then 0 else (m.jmax : Int) - 1 := by rw [h2]; exact h.jchunk hj
    rw [hs2, hj1]
    by_cases h0 : j = 0
    · simp only [h0, if_true, Nat.cast_zero]
      rw [if_neg (by omega)]
      omega
    · simp only [h0, if_false]
      rw [if_neg (by omega), hj1, if_neg h0]
  have hs2d : Done m reg lev ((j + 1) * m.imax) fl s2 := by
    refine ⟨?_, ?_, ?_, ?_⟩
    · rw [e1]; exact h1.before
    · rw [e1]; exact h1.here
    · rw [e1]; exact h1.ahead
    · rw [e2]; exact h1.count
  by_cases hc : s2.count ≠ 0 ∧ s2.started = false
  · rw [if_pos hc]
    have hfl : fl = none := by
      have := hc.2
      rw [e3, h3, h.started] at this
      cases fl
      · rfl
      · simp at this
    have hc0 : s.count = 0 := h.none.mp hfl
    subst hfl
    have hm1 : 0 < m.imax := by
      by_contra h0
      have h0 : m.imax = 0 := by omega
      have := h1.count
      rw [h0] at this
      simp at this
      rw [e2, this] at hc
      exact hc.1 rfl
    have er : ((j * m.imax : Nat) : Int) = (j : Int) * (m.imax : Int) := by push_cast; ring
    have hlt : j * m.imax < (j + 1) * m.imax := by rw [Nat.add_mul]; omega
    refine ⟨some j, ⟨⟨?_, ?_, ?_, hs2d.count⟩, ?_, ?_, rfl, fun hlt' => by rw [if_neg (by omega)]; exact e4 hlt'⟩⟩
    · intro q hq
      simp only [upd, ← er]
      have hb := hs2d.before q hq
      by_cases hq' : q = j * m.imax
      · rw [hq', if_pos rfl]
        rw [hq'] at hb
        rw [hb]
        congr 1
        symm
        rw [decide_eq_true_eq]
        exact ⟨j, rfl, rfl⟩
      · rw [if_neg (by intro hh; exact hq' (by exact_mod_cast hh)), hb]
        congr 1
        simp [hq']
    · intro hlt'
      simp only [upd, ← er]
      rw [if_neg (by intro hh; have : (j + 1) * m.imax = j * m.imax := by exact_mod_cast hh
                     omega)]
      exact hs2d.here hlt'
    · intro q h1 h2 h3
      simp only [upd, ← er]
      rw [if_neg (by intro hh; have : q = j * m.imax := by exact_mod_cast hh
                     omega)]
      exact hs2d.ahead q h1 h2 h3
    · intro a ha
      obtain rfl : j = a := by simpa using ha
      refine ⟨by omega, ?_⟩
      rw [← h.done.count]; exact hc0
    · simp only [reduceCtorEq, false_iff]
      exact hc.1
  · rw [if_neg hc]
    refine ⟨fl, ⟨hs2d, ?_, ?_, ?_, fun hlt' => by rw [if_neg (by omega)]; exact e4 hlt'⟩⟩
    · intro a ha
      exact ⟨by have := (h.fl_lt a ha).1; omega, (h.fl_lt a ha).2⟩
    · constructor
      · intro hfl
        by_contra hne
        apply hc
        refine ⟨hne, ?_⟩
        rw [e3, h3, h.started, hfl]; rfl
      · intro h0
        rw [h.none]
        rw [e2] at h0
        omega
    · rw [e3, h3, h.started]

theorem initRows_rows {m : Mesh K} {reg : Option (Nat → Bool)} {lev : K} {s : Init} (h : Rows m reg lev 0 none s)
    (n : Nat) (hn : n ≤ m.jmax) : ∃ fl, Rows m reg lev n fl ((List.range n).foldl (initRow m reg lev) s) := by
  induction n with
  | zero => exact ⟨none, h⟩
  | succ n ih =>
    obtain ⟨fl, hr⟩ := ih (by omega)
    simp only [List.range_succ, List.foldl_append, List.foldl_cons, List.foldl_nil]
    exact initRow_rows (by omega) hr

/-- what `data_init` leaves -/
structure Inited (m : Mesh K) (reg : Option (Nat → Bool)) (lev : K) (s : Site) (fl : Option Nat) : Prop where
  data : ∀ q < m.imax * m.jmax, s.data (q : Int) =
    { F m reg lev q with row := decide (∃ j, fl = some j ∧ q = j * m.imax), allDone := decide (q = 0 ∧ s.count = 0) }
  count : s.count = ∑ q ∈ Finset.range (m.imax * m.jmax), (F m reg lev q).bits
  none : fl = none ↔ s.count = 0
  some : ∀ j, fl = some j → j < m.jmax ∧ ∀ q < j * m.imax, (F m reg lev q).bits = 0
  zero : (s.data 0).allDone = decide (s.count = 0) ∧ (m.imax * m.jmax = 0 → (s.data 0).any = false)
  edge0 : s.edge0 = 0
  left0 : s.left0 = 0
  edge00 : s.edge00 = 0
  saddle : s.count ≠ 0 → ∀ k, 0 ≤ k → k < m.ijmax → s.saddle k = Option.none

theorem F_allDone (m : Mesh K) (reg : Option (Nat → Bool)) (lev : K) (q : Nat) : (F m reg lev q).allDone = false := by
  unfold F initMarks ideal; rfl

theorem rows_zero (m : Mesh K) (reg : Option (Nat → Bool)) (lev : K) (junk : Arr Cell) :
    Rows m reg lev 0 none ⟨upd junk 0 { z := m.high lev 0 }, 0, false, 0, 0⟩ := by
  refine ⟨⟨?_, ?_, ?_, ?_⟩, ?_, ?_, rfl, fun _ => rfl⟩
  · intro q hq; omega
  · intro hlt
    rw [Nat.zero_mul] at hlt
    replace hlt := hlt.resolve_right (lt_irrefl 0)
    have : zf m reg 0 = false := by unfold zf; rw [if_pos (by omega)]
    simp [upd, zv, hlt, this]
  · intro q h1 h2 h3; omega
  · simp
  · intro a ha; simp at ha
  · simp

theorem dataInit_spec (m : Mesh K) (reg : Option (Nat → Bool)) (lev : K) (junk : Arr Cell) (sjunk : Arr (Option Bool)) :
    ∃ fl, Inited m reg lev (dataInit m reg lev junk sjunk) fl := by
  have h0 := rows_zero m reg lev junk
  obtain ⟨fl, hr⟩ := initRows_rows h0 m.jmax le_rfl
  refine ⟨fl, ?_⟩
  unfold dataInit
  simp only
  set s := (List.range m.jmax).foldl (initRow m reg lev) ⟨upd junk 0 { z := m.high lev 0 }, 0, false, 0, 0⟩ with hs
  have hcount := hr.done.count
  rw [Nat.mul_comm m.jmax m.imax] at hcount
  have hbefore := hr.done.before
  rw [Nat.mul_comm m.jmax m.imax] at hbefore
  have hzero : m.imax * m.jmax = 0 → s.count = 0 := by
    intro h; rw [hcount, h]; simp
  have hnn : ∀ q, 0 ≤ (F m reg lev q).bits := fun q => bits_nonneg _
  refine ⟨?_, hcount, hr.none, ?_, ?_, rfl, rfl, rfl, ?_⟩
  · intro q hq
    by_cases hc : s.count = 0
    · simp only [hc, if_true, and_true]
      simp only [upd]
      by_cases h0 : q = 0
      · subst h0
        simp only [Nat.cast_zero, if_true]
        have := hbefore 0 hq
        simp only [Nat.cast_zero] at this
        rw [this]
        simp
      · rw [if_neg (by omega), hbefore q hq]
        simp only [h0, decide_false]
        have := F_allDone m reg lev q
        rw [← this]
    · simp only [hc, if_false, and_false, decide_false]
      rw [hbefore q hq]
      have := F_allDone m reg lev q
      rw [← this]
  · intro j hj
    obtain ⟨h1, h2⟩ := hr.fl_lt j hj
    refine ⟨h1, ?_⟩
    intro q hq
    rw [Finset.sum_eq_zero_iff_of_nonneg (fun q _ => hnn q)] at h2
    exact h2 q (by simpa using hq)
  · constructor
    · by_cases hc : s.count = 0
      · simp only [hc, if_true, upd, decide_true]
      · simp only [hc, if_false, decide_false]
        have hpos : 0 < m.imax * m.jmax := by
          by_contra h; exact hc (hzero (by omega))
        have := hbefore 0 hpos
        simp only [Nat.cast_zero] at this
        rw [this]
        exact F_allDone m reg lev 0
    · intro h
      have hc := hzero h
      simp only [hc, if_true, upd, Cell.any]
      rcases Nat.mul_eq_zero.mp h with h' | h'
      · -- rows without columns leave the array as it was
        have hst : ∀ n, ((List.range n).foldl (initRow m reg lev) ⟨upd junk 0 { z := m.high lev 0 }, 0, false, 0, 0⟩).data =
            upd junk 0 { z := m.high lev 0 } ∧
            ((List.range n).foldl (initRow m reg lev) ⟨upd junk 0 { z := m.high lev 0 }, 0, false, 0, 0⟩).count = 0 := by
          intro n
          induction n with
          | zero => exact ⟨rfl, rfl⟩
          | succ n ih =>
            simp only [List.range_succ, List.foldl_append, List.foldl_cons, List.foldl_nil]
            generalize (List.range n).foldl (initRow m reg lev) _ = u at ih
            unfold initRow
            generalize hs1 : (List.range m.imax).foldl (initCell m reg lev n) { u with ichunk := 0 } = s1
            have c1 : s1.count = 0 := by rw [← hs1, h']; exact ih.2
            have c2 : s1.data = upd junk 0 { z := m.high lev 0 } := by rw [← hs1, h']; exact ih.1
            clear hs1
            by_cases hj : (n : Int) = s1.jchunk
            · simp only [if_pos hj, c1, c2, ne_eq, not_true, false_and, if_false]
              exact ⟨trivial, trivial⟩
            · simp only [if_neg hj, c1, c2, ne_eq, not_true, false_and, if_false]
              exact ⟨trivial, trivial⟩
        rw [hs, (hst m.jmax).1]
        simp [upd]
      · rw [hs, h']
        simp [upd]
  · intro hc k hk0 hk1
    simp only at hc
    simp only [hc, if_false]
    exact if_pos ⟨hk0, hk1⟩

/-- no start marks behind the array of the values -/
theorem dataInit_tail (m : Mesh K) (reg : Option (Nat → Bool)) (lev : K) (junk : Arr Cell) (sjunk : Arr (Option Bool))
    (hc : (dataInit m reg lev junk sjunk).count ≠ 0) {k : Int} (h0 : m.ijmax ≤ k) (h1 : k < m.nreg) (d : Dir) :
    ((dataInit m reg lev junk sjunk).data k).bit d = false := by
  obtain ⟨fl, hr⟩ := initRows_rows (rows_zero m reg lev junk) m.jmax le_rfl
  unfold dataInit at hc ⊢
  simp only at hc ⊢
  set s := (List.range m.jmax).foldl (initRow m reg lev) ⟨upd junk 0 { z := m.high lev 0 }, 0, false, 0, 0⟩ with hs
  have hpos : 0 < m.jmax * m.imax := by
    by_contra h
    apply hc
    rw [hr.done.count, show m.jmax * m.imax = 0 by omega]
    simp
  have hj : 1 ≤ m.jmax := by
    rcases Nat.eq_zero_or_pos m.jmax with h | h
    · rw [h] at hpos; omega
    · exact h
  have hle : m.imax ≤ m.jmax * m.imax := Nat.le_mul_of_pos_left _ hj
  simp only [hc, if_false]
  have e : m.ijmax = ((m.jmax * m.imax : Nat) : Int) := by unfold Mesh.ijmax; push_cast; ring
  have e' : m.nreg = m.ijmax + m.imax + 1 := rfl
  obtain ⟨q, rfl⟩ := Int.eq_ofNat_of_zero_le (show 0 ≤ k by omega)
  rcases Nat.eq_or_lt_of_le (show m.jmax * m.imax ≤ q by omega) with h | h
  · rw [← h, hr.done.here (Or.inr hpos)]
    cases d <;> rfl
  · rw [hr.done.ahead q h (by omega) (by omega)]
    cases d <;> rfl

end Trackeddy.Cntr
