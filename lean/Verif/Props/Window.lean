import Mathlib.Tactic.Linarith
import Verif.Model.Window
import Mathlib.Algebra.Order.Field.Rat
import Mathlib.Algebra.Order.Ring.Rat

/-!
C39 (window around a contour) and C40 (grid indices of contour points).
-/
namespace Trackeddy

/-! ### C39 -/

theorem clampTR_eq (s0 s1 t0 t1 : Int) : clampTR s0 s1 t0 t1 = (min t0 s0, min t1 s1) := by
  fun_induction clampTR s0 s1 t0 t1 with
  | case1 t0 t1 h h' ih =>
    rw [ih]
    have : t0 > s0 := by omega
    rw [Prod.mk.injEq]; constructor <;> omega
  | case2 t0 t1 h h' ih =>
    rw [ih]
    rw [Prod.mk.injEq]; constructor <;> omega
  | case3 t0 t1 h =>
    rw [Prod.mk.injEq]; constructor <;> omega

theorem clampBL_eq (b0 b1 : Int) : clampBL b0 b1 = (max b0 0, max b1 0) := by
  fun_induction clampBL b0 b1 with
  | case1 b0 b1 h h' ih =>
    rw [ih]; rw [Prod.mk.injEq]; constructor <;> omega
  | case2 b0 b1 h h' ih =>
    rw [ih]; rw [Prod.mk.injEq]; constructor <;> omega
  | case3 b0 b1 h =>
    rw [Prod.mk.injEq]; constructor <;> omega

theorem maxI_spec (p : Int) (l : List Int) : (∀ v ∈ p :: l, v ≤ maxI p l) ∧ maxI p l ∈ p :: l := by
  unfold maxI
  induction l generalizing p with
  | nil => simp
  | cons a l ih =>
    obtain ⟨h1, h2⟩ := ih (max p a)
    rw [List.foldl_cons]
    have hm := h1 (max p a) (by simp)
    constructor
    · intro v hv
      simp only [List.mem_cons] at hv
      rcases hv with rfl | rfl | hv
      · omega
      · omega
      · exact h1 v (by simp [hv])
    · rcases List.mem_cons.mp h2 with h2 | h2
      · rcases max_choice p a with hc | hc
        · rw [hc] at h2; simp [hc, h2]
        · rw [hc] at h2; simp [hc, h2]
      · simp [h2]

theorem minI_spec (p : Int) (l : List Int) : (∀ v ∈ p :: l, minI p l ≤ v) ∧ minI p l ∈ p :: l := by
  unfold minI
  induction l generalizing p with
  | nil => simp
  | cons a l ih =>
    obtain ⟨h1, h2⟩ := ih (min p a)
    rw [List.foldl_cons]
    have hm := h1 (min p a) (by simp)
    constructor
    · intro v hv
      simp only [List.mem_cons] at hv
      rcases hv with rfl | rfl | hv
      · omega
      · omega
      · exact h1 v (by simp [hv])
    · rcases List.mem_cons.mp h2 with h2 | h2
      · rcases min_choice p a with hc | hc
        · rw [hc] at h2; simp [hc, h2]
        · rw [hc] at h2; simp [hc, h2]
      · simp [h2]

/-- the contour is inside the grid -/
def InGrid (s0 s1 : Int) (l : List (Int × Int)) : Prop :=
  ∀ q ∈ l, 0 ≤ q.1 ∧ q.1 < s0 ∧ 0 ≤ q.2 ∧ q.2 < s1

/-- margin requested: `n` for an integer, for "auto" half of the larger extent of the contour but at least
three, else none; `n` bounds the margin from below -/
def Requested (t : Threshold) (l : List (Int × Int)) (n : Int) : Prop :=
  match t with
  | .int v => n = v
  | .other => n = 0
  | .auto => n = 3 ∨ ∃ q ∈ l, ∃ q' ∈ l, 2 * n ≤ q.1 - q'.1 ∨ 2 * n ≤ q.2 - q'.2

theorem threshValue_nonneg {t : Threshold} {d0 d1 : Int} (h : ∀ v, t = .int v → 0 ≤ v) :
    0 ≤ threshValue t d0 d1 := by
  unfold threshValue
  split
  · simp only; split <;> omega
  · exact h _ rfl
  · omega

theorem requested_le {t : Threshold} {p : Int × Int} {ps : List (Int × Int)} {n : Int}
    (h : Requested t (p :: ps) n) :
    n ≤ threshValue t (maxI p.1 (ps.map Prod.fst) - minI p.1 (ps.map Prod.fst))
      (maxI p.2 (ps.map Prod.snd) - minI p.2 (ps.map Prod.snd)) := by
  unfold threshValue
  cases t with
  | int v => simp only [Requested] at h; simp [h]
  | other => simp only [Requested] at h; simp [h]
  | auto =>
    simp only [Requested] at h
    simp only
    rcases h with rfl | ⟨q, hq, q', hq', h⟩
    · split <;> omega
    · have a1 := (maxI_spec p.1 (ps.map Prod.fst)).1 q.1 (by
        rcases List.mem_cons.mp hq with rfl | hq
        · simp
        · exact List.mem_cons_of_mem _ (List.mem_map_of_mem hq))
      have a2 := (maxI_spec p.2 (ps.map Prod.snd)).1 q.2 (by
        rcases List.mem_cons.mp hq with rfl | hq
        · simp
        · exact List.mem_cons_of_mem _ (List.mem_map_of_mem hq))
      have a3 := (minI_spec p.1 (ps.map Prod.fst)).1 q'.1 (by
        rcases List.mem_cons.mp hq' with rfl | hq'
        · simp
        · exact List.mem_cons_of_mem _ (List.mem_map_of_mem hq'))
      have a4 := (minI_spec p.2 (ps.map Prod.snd)).1 q'.2 (by
        rcases List.mem_cons.mp hq' with rfl | hq'
        · simp
        · exact List.mem_cons_of_mem _ (List.mem_map_of_mem hq'))
      split <;> omega

/-- C39: the window lies inside the grid, contains every point of the contour (the relative indices are
valid indices of the window and refer to the same grid points), and every grid point within the
requested margin of a contour point, in the larger sense of rows and columns, is in the window. -/
theorem C39_window (s0 s1 : Int) (p : Int × Int) (ps : List (Int × Int)) (t : Threshold)
    (hin : InGrid s0 s1 (p :: ps)) (ht : ∀ v, t = .int v → 0 ≤ v) :
    let w := getWindow s0 s1 p ps t
    (0 ≤ w.bl0 ∧ w.tr0 ≤ s0 ∧ 0 ≤ w.bl1 ∧ w.tr1 ≤ s1) ∧
    List.Forall₂ (fun q r => r.1 = q.1 - w.bl0 ∧ r.2 = q.2 - w.bl1 ∧
      0 ≤ r.1 ∧ r.1 < w.tr0 - w.bl0 ∧ 0 ≤ r.2 ∧ r.2 < w.tr1 - w.bl1) (p :: ps) w.rel ∧
    ∀ n, Requested t (p :: ps) n → ∀ q ∈ p :: ps, ∀ g : Int × Int,
      0 ≤ g.1 → g.1 < s0 → 0 ≤ g.2 → g.2 < s1 → |g.1 - q.1| ≤ n → |g.2 - q.2| ≤ n →
      w.bl0 ≤ g.1 ∧ g.1 < w.tr0 ∧ w.bl1 ≤ g.2 ∧ g.2 < w.tr1 := by
  simp only [getWindow, clampTR_eq, clampBL_eq]
  have hth := threshValue_nonneg (d0 := maxI p.1 (ps.map Prod.fst) - minI p.1 (ps.map Prod.fst))
    (d1 := maxI p.2 (ps.map Prod.snd) - minI p.2 (ps.map Prod.snd)) ht
  have hreq := fun n (h : Requested t (p :: ps) n) => requested_le h
  generalize threshValue t _ _ = th at *
  have b1 : ∀ q ∈ p :: ps, minI p.1 (ps.map Prod.fst) ≤ q.1 ∧ q.1 ≤ maxI p.1 (ps.map Prod.fst) ∧
      minI p.2 (ps.map Prod.snd) ≤ q.2 ∧ q.2 ≤ maxI p.2 (ps.map Prod.snd) := by
    intro q hq
    have m1 : q.1 ∈ p.1 :: ps.map Prod.fst := by
      rcases List.mem_cons.mp hq with rfl | hq
      · simp
      · exact List.mem_cons_of_mem _ (List.mem_map_of_mem hq)
    have m2 : q.2 ∈ p.2 :: ps.map Prod.snd := by
      rcases List.mem_cons.mp hq with rfl | hq
      · simp
      · exact List.mem_cons_of_mem _ (List.mem_map_of_mem hq)
    exact ⟨(minI_spec _ _).1 _ m1, (maxI_spec _ _).1 _ m1, (minI_spec _ _).1 _ m2, (maxI_spec _ _).1 _ m2⟩
  refine ⟨⟨by omega, by omega, by omega, by omega⟩, ?_, ?_⟩
  · rw [List.forall₂_map_right_iff, List.forall₂_same]
    intro q hq
    have h1 := b1 q hq
    have h2 := hin q hq
    refine ⟨rfl, rfl, ?_, ?_, ?_, ?_⟩ <;> simp only <;> omega
  · intro n hn q hq g g0 g1 g2 g3 d1 d2
    have h1 := b1 q hq
    have h2 := hreq n hn
    rw [abs_le] at d1 d2
    omega

/-- C39: the window is not larger than needed: a row or column of the window is within the margin of the
bounding box of the contour. -/
theorem C39_tight (s0 s1 : Int) (p : Int × Int) (ps : List (Int × Int)) (v : Nat) :
    let w := getWindow s0 s1 p ps (.int v)
    ∀ g : Int × Int, w.bl0 ≤ g.1 → g.1 < w.tr0 → w.bl1 ≤ g.2 → g.2 < w.tr1 →
      (∃ q ∈ p :: ps, q.1 ≤ g.1 + v) ∧ (∃ q ∈ p :: ps, g.1 - v ≤ q.1) ∧
      (∃ q ∈ p :: ps, q.2 ≤ g.2 + v) ∧ (∃ q ∈ p :: ps, g.2 - v ≤ q.2) := by
  simp only [getWindow, clampTR_eq, clampBL_eq, threshValue]
  have mem1 : ∀ x ∈ p.1 :: ps.map Prod.fst, ∃ q ∈ p :: ps, q.1 = x := by
    intro x hx
    rw [← List.map_cons (f := Prod.fst)] at hx
    exact List.mem_map.mp hx
  have mem2 : ∀ x ∈ p.2 :: ps.map Prod.snd, ∃ q ∈ p :: ps, q.2 = x := by
    intro x hx
    rw [← List.map_cons (f := Prod.snd)] at hx
    exact List.mem_map.mp hx
  intro g h1 h2 h3 h4
  obtain ⟨qa, ha, ea⟩ := mem1 _ (minI_spec p.1 (ps.map Prod.fst)).2
  obtain ⟨qb, hb, eb⟩ := mem1 _ (maxI_spec p.1 (ps.map Prod.fst)).2
  obtain ⟨qc, hc, ec⟩ := mem2 _ (minI_spec p.2 (ps.map Prod.snd)).2
  obtain ⟨qd, hd, ed⟩ := mem2 _ (maxI_spec p.2 (ps.map Prod.snd)).2
  exact ⟨⟨qa, ha, by omega⟩, ⟨qb, hb, by omega⟩, ⟨qc, hc, by omega⟩, ⟨qd, hd, by omega⟩⟩

/-- a contour near a corner of a 20 × 30 grid: the window is cut on two sides -/
example : InGrid 20 30 [(1, 26), (2, 27), (2, 28), (1, 29)] ∧
    getWindow 20 30 (1, 26) [(2, 27), (2, 28), (1, 29)] .auto
      = ⟨0, 23, 6, 30, [(1, 3), (2, 4), (2, 5), (1, 6)]⟩ := by
  constructor
  · intro q hq; simp at hq; rcases hq with rfl | rfl | rfl | rfl <;> decide
  · simp only [getWindow, clampTR_eq, clampBL_eq]; decide +kernel

/-! ### C40 -/

/-- the mask is one block of `h` rows from `i0` and `w` columns from `j0` -/
structure Block (ny nx : Nat) (m : Nat → Nat → Bool) (i0 h j0 w : Nat) : Prop where
  hpos : 0 < h
  wpos : 0 < w
  hy : i0 + h ≤ ny
  hx : j0 + w ≤ nx
  iff : ∀ r < ny, ∀ c < nx, (m r c = true ↔ (i0 ≤ r ∧ r < i0 + h) ∧ (j0 ≤ c ∧ c < j0 + w))

theorem range_split {n a k : Nat} (h : a + k ≤ n) :
    List.range n = List.range' 0 a ++ (List.range' a k ++ List.range' (a + k) (n - a - k)) := by
  rw [List.range_eq_range']
  have e1 := List.range'_append_1 (s := a) (m := k) (n := n - a - k)
  have e2 := List.range'_append_1 (s := 0) (m := a) (n := k + (n - a - k))
  rw [e1]
  rw [Nat.zero_add] at e2
  rw [e2]
  congr 1
  omega

theorem filter_interval {n a k : Nat} (h : a + k ≤ n) (p : Nat → Bool)
    (hp : ∀ c < n, (p c = true ↔ a ≤ c ∧ c < a + k)) : (List.range n).filter p = List.range' a k := by
  rw [range_split h, List.filter_append, List.filter_append]
  have h1 : (List.range' 0 a).filter p = [] := by
    rw [List.filter_eq_nil_iff]
    intro c hc
    rw [List.mem_range'_1] at hc
    rw [hp c (by omega)]
    omega
  have h2 : (List.range' a k).filter p = List.range' a k := by
    rw [List.filter_eq_self]
    intro c hc
    rw [List.mem_range'_1] at hc
    rw [hp c (by omega)]
    omega
  have h3 : (List.range' (a + k) (n - a - k)).filter p = [] := by
    rw [List.filter_eq_nil_iff]
    intro c hc
    rw [List.mem_range'_1] at hc
    rw [hp c (by omega)]
    omega
  rw [h1, h2, h3]
  simp

theorem masked_block {ny nx : Nat} {m : Nat → Nat → Bool} {i0 h j0 w : Nat} (b : Block ny nx m i0 h j0 w) :
    masked ny nx m = (List.range' i0 h).flatMap fun r => (List.range' j0 w).map fun c => (r, c) := by
  unfold masked
  rw [range_split b.hy, List.flatMap_append, List.flatMap_append]
  have hb := b.hy
  have e1 : ((List.range' 0 i0).flatMap fun r => ((List.range nx).filter fun c => m r c).map fun c => (r, c)) = [] := by
    rw [List.flatMap_eq_nil_iff]
    intro r hr
    rw [List.mem_range'_1] at hr
    have : (List.range nx).filter (fun c => m r c) = [] := by
      rw [List.filter_eq_nil_iff]
      intro c hc
      rw [b.iff r (by omega) c (List.mem_range.mp hc)]
      omega
    rw [this]; rfl
  have e3 : ((List.range' (i0 + h) (ny - i0 - h)).flatMap fun r =>
      ((List.range nx).filter fun c => m r c).map fun c => (r, c)) = [] := by
    rw [List.flatMap_eq_nil_iff]
    intro r hr
    rw [List.mem_range'_1] at hr
    have : (List.range nx).filter (fun c => m r c) = [] := by
      rw [List.filter_eq_nil_iff]
      intro c hc
      rw [b.iff r (by omega) c (List.mem_range.mp hc)]
      omega
    rw [this]; rfl
  rw [e1, e3, List.nil_append, List.append_nil]
  apply List.flatMap_congr
  intro r hr
  rw [List.mem_range'_1] at hr
  rw [filter_interval b.hx]
  intro c hc
  rw [b.iff r (by omega) c hc]
  omega

theorem block_get (i0 h j0 w k : Nat) (hk : k < h * w) :
    ((List.range' i0 h).flatMap fun r => (List.range' j0 w).map fun c => (r, c))[k]?
      = some (k / w + i0, k % w + j0) := by
  induction h generalizing i0 k with
  | zero => omega
  | succ h ih =>
    rw [List.range'_succ, List.flatMap_cons]
    have hw : 0 < w := by
      rcases Nat.eq_zero_or_pos w with h0 | h0
      · subst h0; simp at hk
      · exact h0
    by_cases hlt : k < w
    · rw [List.getElem?_append_left (by simpa using hlt)]
      rw [List.getElem?_map, List.getElem?_range' hlt]
      simp [Nat.div_eq_of_lt hlt, Nat.mod_eq_of_lt hlt, Nat.add_comm]
    · have hlt : w ≤ k := by omega
      rw [List.getElem?_append_right (by simpa using hlt)]
      simp only [List.length_map, List.length_range']
      rw [ih (i0 + 1) (k - w) (by rw [Nat.succ_mul] at hk; omega)]
      have h1 : k / w = (k - w) / w + 1 := by
        rw [Nat.div_eq_sub_div hw hlt]
      have h2 : k % w = (k - w) % w := Nat.mod_eq_sub_mod hlt
      rw [h1, h2]
      congr 2
      omega

theorem masked_length_block {ny nx : Nat} {m : Nat → Nat → Bool} {i0 h j0 w : Nat} (b : Block ny nx m i0 h j0 w) :
    (masked ny nx m).length = h * w := by
  rw [masked_block b]
  simp [List.length_flatMap]

theorem lastUnique_eq {l : List Nat} {v : Nat} (h1 : ∀ x ∈ l, x ≤ v) (h2 : v ∈ l) : lastUnique l = v := by
  unfold lastUnique
  have aux : ∀ (l : List Nat) (a : Nat), (∀ x ∈ l, x ≤ l.foldl max a) ∧ a ≤ l.foldl max a ∧
      ∀ b, a ≤ b → (∀ x ∈ l, x ≤ b) → l.foldl max a ≤ b := by
    intro l
    induction l with
    | nil => intro a; simp
    | cons y l ih =>
      intro a
      obtain ⟨i1, i2, i3⟩ := ih (max a y)
      rw [List.foldl_cons]
      refine ⟨?_, by omega, ?_⟩
      · intro x hx
        rcases List.mem_cons.mp hx with rfl | hx
        · omega
        · exact i1 x hx
      · intro b hb hl
        have hy := hl y (by simp)
        exact i3 b (by omega) (fun x hx => hl x (by simp [hx]))
  obtain ⟨a1, _, a3⟩ := aux l 0
  have := a1 v h2
  have := a3 v (Nat.zero_le _) h1
  omega

/-- sums that are `h > 0` on an interval and zero elsewhere -/
theorem sums_interval {n a k v : Nat} (hk : 0 < k) (hn : a + k ≤ n) (hv : 0 < v) (l : List Nat)
    (hl : l.length = n) (hval : ∀ c, (hc : c < l.length) → l[c] = if a ≤ c ∧ c < a + k then v else 0) :
    lastUnique l = v ∧ argmaxNat l = a := by
  have hmem : ∀ x ∈ l, x ≤ v := by
    intro x hx
    obtain ⟨c, hc, rfl⟩ := List.mem_iff_getElem.mp hx
    rw [hval c hc]; split <;> omega
  have ha : a < l.length := by omega
  have hva : l[a] = v := by rw [hval a ha]; simp [hk]
  constructor
  · exact lastUnique_eq hmem (hva ▸ List.getElem_mem ha)
  · unfold argmaxNat
    rw [List.findIdx_eq ha]
    constructor
    · rw [hva]
      simpa using hmem
    · intro j hj
      rw [hval j (by omega), if_neg (by omega)]
      have : ¬ (l.all fun w => decide (w ≤ 0)) = true := by
        simp only [List.all_eq_true, decide_eq_true_eq, not_forall]
        exact ⟨v, hva ▸ List.getElem_mem ha, by omega⟩
      simpa using this

theorem countP_interval {n a k : Nat} (h : a + k ≤ n) (p : Nat → Bool)
    (hp : ∀ c < n, (p c = true ↔ a ≤ c ∧ c < a + k)) : (List.range n).countP p = k := by
  rw [List.countP_eq_length_filter, filter_interval h p hp, List.length_range']

theorem countP_none {n : Nat} (p : Nat → Bool) (hp : ∀ c < n, p c ≠ true) : (List.range n).countP p = 0 := by
  rw [List.countP_eq_zero]
  intro c hc
  exact hp c (List.mem_range.mp hc)

/-- C40, positive part for a mask that is one block: the index computed for the `k`-th masked point is the
index of that point, for every `k`, and no exception occurs. -/
theorem C40_block_partial {ny nx : Nat} {m : Nat → Nat → Bool} {i0 h j0 w : Nat} (b : Block ny nx m i0 h j0 w)
    (k : Nat) (hk : k < (masked ny nx m).length) :
    ∃ p, (masked ny nx m)[k]? = some p ∧ codeIndex ny nx m k = .ok p := by
  rw [masked_length_block b] at hk
  have hb1 := b.hy
  have hb2 := b.hx
  have hb3 := b.hpos
  have hb4 := b.wpos
  refine ⟨(k / w + i0, k % w + j0), by rw [masked_block b]; exact block_get i0 h j0 w k hk, ?_⟩
  obtain ⟨c1, c2⟩ := sums_interval (n := nx) (v := h) b.wpos b.hx b.hpos (colSums ny nx m)
    (by simp [colSums]) (by
      intro c hc
      have hc' : c < nx := by simpa [colSums] using hc
      simp only [colSums, List.getElem_map, List.getElem_range]
      split
      · apply countP_interval b.hy
        intro r hr; rw [b.iff r hr c hc']; omega
      · apply countP_none
        intro r hr; rw [Ne, b.iff r hr c hc']; omega)
  obtain ⟨r1, r2⟩ := sums_interval (n := ny) (v := w) b.hpos b.hy b.wpos (rowSums ny nx m)
    (by simp [rowSums]) (by
      intro r hr
      have hr' : r < ny := by simpa [rowSums] using hr
      simp only [rowSums, List.getElem_map, List.getElem_range]
      split
      · apply countP_interval b.hx
        intro c hc; rw [b.iff r hr' c hc]; omega
      · apply countP_none
        intro c hc; rw [Ne, b.iff r hr' c hc]; omega)
  unfold codeIndex
  simp only [c1, c2, r1, r2, if_pos hk]

/-- a non-empty convex set of indices is an interval -/
theorem convex_interval {n : Nat} (p : Nat → Bool) (hne : ∃ c < n, p c = true)
    (hconv : ∀ i k j, i ≤ k → k ≤ j → j < n → p i = true → p j = true → p k = true) :
    ∃ a k, 0 < k ∧ a + k ≤ n ∧ ∀ c < n, (p c = true ↔ a ≤ c ∧ c < a + k) := by
  classical
  obtain ⟨c0, hc0, hp0⟩ := hne
  have hex : ∃ c, c < n ∧ p c = true := ⟨c0, hc0, hp0⟩
  obtain ⟨ha, hpa⟩ := Nat.find_spec hex
  set a := Nat.find hex with hadef
  have hmin : ∀ c, c < n → p c = true → a ≤ c := fun c hc hp => Nat.find_min' hex ⟨hc, hp⟩
  have hbound : c0 ≤ n := hc0.le
  set z := Nat.findGreatest (fun c => c < n ∧ p c = true) n with hz
  obtain ⟨hzn, hpz⟩ : z < n ∧ p z = true := Nat.findGreatest_spec (P := fun c => c < n ∧ p c = true) hbound ⟨hc0, hp0⟩
  have hmax : ∀ c, c < n → p c = true → c ≤ z := fun c hc hp =>
    Nat.le_findGreatest hc.le ⟨hc, hp⟩
  have haz : a ≤ z := hmin z hzn hpz
  refine ⟨a, z - a + 1, by omega, by omega, fun c hc => ⟨fun hp => ?_, fun h => ?_⟩⟩
  · have := hmin c hc hp
    have := hmax c hc hp
    omega
  · exact hconv a c z h.1 (by omega) hzn hpa hpz

section
variable {K : Type} [Field K] [LinearOrder K] [IsStrictOrderedRing K]

/-- the coordinate axis is ascending or descending on its `n` entries -/
def MonoAxis (n : Nat) (f : Nat → K) : Prop :=
  (∀ i j, i ≤ j → j < n → f i ≤ f j) ∨ (∀ i j, i ≤ j → j < n → f j ≤ f i)

theorem near_convex {n : Nat} {f : Nat → K} (hm : MonoAxis n f) (pt : K) (i k j : Nat) (hik : i ≤ k) (hkj : k ≤ j)
    (hj : j < n) (hi : nearPt (f i) pt = true) (hjn : nearPt (f j) pt = true) : nearPt (f k) pt = true := by
  simp only [nearPt, decide_eq_true_eq, abs_le] at *
  rcases hm with hm | hm
  · have h1 := hm i k hik (by omega)
    have h2 := hm k j hkj hj
    constructor <;> linarith [hi.1, hi.2, hjn.1, hjn.2]
  · have h1 := hm i k hik (by omega)
    have h2 := hm k j hkj hj
    constructor <;> linarith [hi.1, hi.2, hjn.1, hjn.2]

/-- C40, positive part: on a rectilinear grid with ascending or descending longitudes and latitudes, the
index computed for any of the grid points among which the nearest neighbour is searched is the index of
that grid point, and no exception occurs. Missing: other grids, see `C40_refuted`. -/
theorem C40_partial (g : Grid K) (lon lat : Nat → K) (hX : ∀ r c, g.X r c = lon c) (hY : ∀ r c, g.Y r c = lat r)
    (hlon : MonoAxis g.nx lon) (hlat : MonoAxis g.ny lat) (pt : K × K) (k : Nat)
    (hk : k < (masked g.ny g.nx (g.mask pt)).length) :
    ∃ p, (masked g.ny g.nx (g.mask pt))[k]? = some p ∧ codeIndex g.ny g.nx (g.mask pt) k = .ok p := by
  have hne : ∃ r < g.ny, ∃ c < g.nx, g.mask pt r c = true := by
    obtain ⟨q, hq⟩ := List.exists_mem_of_length_pos (by omega : 0 < (masked g.ny g.nx (g.mask pt)).length)
    unfold masked at hq
    rw [List.mem_flatMap] at hq
    obtain ⟨r, hr, hq⟩ := hq
    obtain ⟨c, hc, _⟩ := List.mem_map.mp hq
    rw [List.mem_filter] at hc
    exact ⟨r, List.mem_range.mp hr, c, List.mem_range.mp hc.1, hc.2⟩
  obtain ⟨r0, hr0, c0, hc0, hm0⟩ := hne
  have hmask : ∀ r c, g.mask pt r c = (nearPt (lon c) pt.1 && nearPt (lat r) pt.2) := by
    intro r c; unfold Grid.mask; rw [hX, hY]
  rw [hmask, Bool.and_eq_true] at hm0
  obtain ⟨j0, w, hw, hxw, hcol⟩ := convex_interval (n := g.nx) (fun c => nearPt (lon c) pt.1) ⟨c0, hc0, hm0.1⟩
    (fun i k j a b c d e => near_convex hlon pt.1 i k j a b c d e)
  obtain ⟨i0, h, hh, hyh, hrow⟩ := convex_interval (n := g.ny) (fun r => nearPt (lat r) pt.2) ⟨r0, hr0, hm0.2⟩
    (fun i k j a b c d e => near_convex hlat pt.2 i k j a b c d e)
  refine C40_block_partial (i0 := i0) (h := h) (j0 := j0) (w := w) ⟨hh, hw, hyh, hxw, ?_⟩ k hk
  intro r hr c hc
  rw [hmask, Bool.and_eq_true, hcol c hc, hrow r hr]
  tauto

end

/-- longitudes from 0 east to the date line, continued with negative longitudes -/
def rolled : Grid ℚ := ⟨1, 6, fun _ c => [0, 1, 2, 50, -2, -1].getD c 0, fun _ _ => 0⟩

/-- C40 is false for a rectilinear grid whose longitudes start at 0 and continue with negative values: the
grid point at longitude -2 is taken for the one at longitude 50. -/
theorem C40_refuted : ∃ (g : Grid ℚ) (pt : ℚ × ℚ) (k : Nat) (p q : Nat × Nat),
    (masked g.ny g.nx (g.mask pt))[k]? = some p ∧ codeIndex g.ny g.nx (g.mask pt) k = .ok q ∧
    g.X p.1 p.2 = -2 ∧ g.X q.1 q.2 = 50 := by
  refine ⟨rolled, (0, 0), 3, (0, 4), (0, 3), ?_⟩
  decide +kernel

/-- a grid turned by 45 degrees -/
def turned : Grid ℚ := ⟨9, 9, fun r c => (c : ℚ) - r, fun r c => (c : ℚ) + r⟩

/-- C40 is false on a curvilinear grid: most grid points near (0, 8) get the index of another one. -/
theorem C40_refuted_curvilinear : ∃ (g : Grid ℚ) (pt : ℚ × ℚ) (k : Nat) (p q : Nat × Nat),
    (masked g.ny g.nx (g.mask pt))[k]? = some p ∧ codeIndex g.ny g.nx (g.mask pt) k = .ok q ∧ p ≠ q := by
  refine ⟨turned, (0, 8), 0, (1, 4), (4, 4), ?_⟩
  decide +kernel

/-! ### C69: nearest grid point of the whole grid -/

section
variable {K : Type} [Field K] [LinearOrder K] [IsStrictOrderedRing K]

theorem mem_masked {ny nx : Nat} {m : Nat → Nat → Bool} {p : Nat × Nat} :
    p ∈ masked ny nx m ↔ p.1 < ny ∧ p.2 < nx ∧ m p.1 p.2 = true := by
  unfold masked
  simp only [List.mem_flatMap, List.mem_range, List.mem_map, List.mem_filter]
  constructor
  · rintro ⟨r, hr, c, ⟨hc, hm⟩, rfl⟩
    exact ⟨hr, hc, hm⟩
  · rintro ⟨hr, hc, hm⟩
    exact ⟨p.1, hr, p.2, ⟨hc, hm⟩, rfl⟩

/-- C69, positive part: if some grid point is within `ρ` of the vertex and the vertex is within `3 - ρ` of
the mean of the contour in both coordinates, then on a rectilinear grid with monotone axes the grid
point assigned to the vertex is a nearest one among all points of the grid. Missing: larger contours,
see `C69_refuted`. -/
theorem C69_partial (g : Grid K) (lon lat : Nat → K) (hX : ∀ r c, g.X r c = lon c) (hY : ∀ r c, g.Y r c = lat r)
    (hlon : MonoAxis g.nx lon) (hlat : MonoAxis g.ny lat) (pt v : K × K) (ρ : K) (hρ : 0 ≤ ρ)
    (hvx : |v.1 - pt.1| ≤ 3 - ρ) (hvy : |v.2 - pt.2| ≤ 3 - ρ)
    (hclose : ∃ r < g.ny, ∃ c < g.nx, g.dist2 v (r, c) ≤ ρ ^ 2) (k : Nat) (hk : g.BallTreeAnswer pt v k) :
    ∃ p, codeIndex g.ny g.nx (g.mask pt) k = .ok p ∧ p.1 < g.ny ∧ p.2 < g.nx ∧
      ∀ r < g.ny, ∀ c < g.nx, g.dist2 v p ≤ g.dist2 v (r, c) := by
  obtain ⟨p, hp, hmin⟩ := hk
  obtain ⟨hk', hpe⟩ := List.getElem?_eq_some_iff.mp hp
  obtain ⟨q, hq1, hq2⟩ := C40_partial g lon lat hX hY hlon hlat pt k hk'
  rw [hp] at hq1
  obtain rfl : p = q := by simpa using hq1
  have hpm : p ∈ masked g.ny g.nx (g.mask pt) := hpe ▸ List.getElem_mem hk'
  rw [mem_masked] at hpm
  have key : ∀ r < g.ny, ∀ c < g.nx, g.dist2 v (r, c) ≤ ρ ^ 2 → (r, c) ∈ masked g.ny g.nx (g.mask pt) := by
    intro r hr c hc hd
    rw [mem_masked]
    refine ⟨hr, hc, ?_⟩
    unfold Grid.dist2 at hd
    have h1 : |g.X r c - v.1| ≤ ρ := abs_le_of_sq_le_sq (by linarith [sq_nonneg (g.Y r c - v.2)]) hρ
    have h2 : |g.Y r c - v.2| ≤ ρ := abs_le_of_sq_le_sq (by linarith [sq_nonneg (g.X r c - v.1)]) hρ
    simp only [Grid.mask, nearPt, Bool.and_eq_true, decide_eq_true_eq]
    have t1 := abs_sub_le (g.X r c) v.1 pt.1
    have t2 := abs_sub_le (g.Y r c) v.2 pt.2
    have p1 := abs_nonneg pt.1
    have p2 := abs_nonneg pt.2
    constructor <;> linarith
  refine ⟨p, hq2, hpm.1, hpm.2.1, ?_⟩
  intro r hr c hc
  by_cases hd : g.dist2 v (r, c) ≤ ρ ^ 2
  · exact hmin _ (key r hr c hc hd)
  · obtain ⟨r0, hr0, c0, hc0, hd0⟩ := hclose
    have := hmin _ (key r0 hr0 c0 hc0 hd0)
    push Not at hd
    linarith

end

/-- a one degree grid along the equator -/
def equator : Grid ℚ := ⟨1, 21, fun _ c => (c : ℚ) - 10, fun _ _ => 0⟩

/-- the hypotheses of `C69_partial` hold for a vertex 2.4 degrees from the centre -/
example : (|(12 / 5 : ℚ) - 0| ≤ 3 - 2 / 5) ∧ equator.dist2 (12 / 5, 0) (0, 12) ≤ (2 / 5) ^ 2 ∧
    (masked 1 21 (equator.mask (0, 0)))[5]? = some (0, 12) := by
  decide +kernel

theorem exists_answer : equator.BallTreeAnswer (0, 0) (12 / 5, 0) 5 := by
  refine ⟨(0, 12), ?_, ?_⟩ <;> decide +kernel

/-- C69 is false: a vertex 10 degrees from the mean of its contour, exactly on a grid point, is assigned to
a grid point 7 degrees away; every possible answer of the search has this defect. -/
theorem C69_refuted : ∃ (g : Grid ℚ) (pt v : ℚ × ℚ), g.dist2 v (0, 20) = 0 ∧
    (∃ k, g.BallTreeAnswer pt v k) ∧
    ∀ k, g.BallTreeAnswer pt v k → ∃ p, codeIndex g.ny g.nx (g.mask pt) k = .ok p ∧ g.dist2 v p = 7 ^ 2 := by
  refine ⟨equator, (0, 0), (10, 0), by decide +kernel, ⟨6, (0, 13), by decide +kernel, by decide +kernel⟩, ?_⟩
  rintro k ⟨p, hp, hmin⟩
  have hmin' := hmin (0, 13) (by decide +kernel)
  obtain ⟨hk, hpe⟩ := List.getElem?_eq_some_iff.mp hp
  have hlen : (masked equator.ny equator.nx (equator.mask (0, 0))).length = 7 := by decide +kernel
  have hpm : p ∈ masked equator.ny equator.nx (equator.mask (0, 0)) := hpe ▸ List.getElem_mem hk
  have hall : ∀ q ∈ masked equator.ny equator.nx (equator.mask (0, 0)),
      equator.dist2 (10, 0) q ≤ equator.dist2 (10, 0) (0, 13) → q = (0, 13) := by decide +kernel
  have hp13 := hall p hpm hmin'
  have hk6 : ∀ k < 7, (masked equator.ny equator.nx (equator.mask (0, 0)))[k]? = some (0, 13) → k = 6 := by
    decide +kernel
  rw [hlen] at hk
  have := hk6 k hk (by rw [hp, hp13])
  subst this
  refine ⟨(0, 13), ?_, ?_⟩ <;> decide +kernel

/-- no grid point within three degrees: there is nothing to search, and the code raises -/
theorem C69_refuted_coarse : ∃ (g : Grid ℚ) (pt : ℚ × ℚ), 0 < g.ny ∧ 0 < g.nx ∧
    ∀ v k, ¬ g.BallTreeAnswer pt v k := by
  refine ⟨⟨1, 2, fun _ c => 10 * (c : ℚ), fun _ _ => 0⟩, (5, 0), by decide, by decide, ?_⟩
  rintro v k ⟨p, hp, _⟩
  have : masked 1 2 ((⟨1, 2, fun _ c => 10 * (c : ℚ), fun _ _ => 0⟩ : Grid ℚ).mask (5, 0)) = [] := by
    decide +kernel
  simp [this] at hp

end Trackeddy
