import Verif.Props.Gaps
import Verif.Props.GaussFit

/-!
C07 from maps on: an eddy that was lost for any number of times is linked again, whatever `ntimes` is
(trackeddy/trackeddy.py:181-224, utils.py:169-256). The two maps have the same contour, with the maximum at its left or right end.
-/
namespace Trackeddy
open Spec
open Cntr (Vertex)

/-! ### tables with one eddy each -/

section
variable {α K Pt : Type} [Field K] [LinearOrder K] [IsStrictOrderedRing K]

theorem snapRows_one (A : Eddy α) : ∀ r ∈ snapRows [A], r.id = 0 ∧ (r.idx = 0 → A.head? = some r.val) := by
  intro r hr
  unfold snapRows eddyRows at hr
  simp only [List.mapIdx_cons, List.mapIdx_nil, List.flatten_cons, List.flatten_nil, List.append_nil] at hr
  obtain ⟨j, hj, rfl⟩ := List.mem_mapIdx.1 hr
  refine ⟨rfl, ?_⟩
  intro h
  simp only at h
  subst h
  simp [List.head?_eq_getElem?, List.getElem?_eq_getElem hj]

theorem snapRows_one_ne {A : Eddy α} {a : α} (h : A.head? = some a) : ∃ r, r ∈ snapRows [A] := by
  cases A with
  | nil => simp at h
  | cons x A => exact ⟨⟨0, 0, x⟩, by simp [snapRows, eddyRows]⟩

theorem two_places {E : Env α K Pt} (hnn : IsNN E.dist E.nn) {snap : Int → Except PyErr (Tbl α)} {A B : Eddy α} {a b : α} {k : Int} (hk : 2 ≤ k)
    (hA : A.head? = some a) (hB : B.head? = some b) (hrow : ∀ t C, snap t = .ok C → SnapRows C.rows)
    (hsn : ∀ t, ∃ C, snap t = .ok C ∧ C.rows = snapRows [if t = 0 ∨ t = k then A else B])
    (haa : E.dist (E.pos a) (E.pos a) * 6371 < E.radius a) (hbb : E.dist (E.pos b) (E.pos b) * 6371 < E.radius b)
    (hba : ¬ E.dist (E.pos b) (E.pos a) * 6371 < E.radius b) (hab : ¬ E.dist (E.pos a) (E.pos b) * 6371 < E.radius a) (T : Nat) (n : Int) :
    ∃ s, timeTracking E snap 0 (some (k + 1)) T n true = .ok s ∧
      (∀ r ∈ s.table.rows, 0 ≤ r.val.1 ∧ r.val.1 ≤ k ∧ r.id = if r.val.1 = 0 ∨ r.val.1 = k then 0 else 1) ∧
      ∀ t, 0 ≤ t → t ≤ k → ∃ r ∈ s.table.rows, r.val.1 = t := by
  have hne : ∀ t, rowsAt snap t ≠ [] := by
    intro t
    obtain ⟨C, h1, h2⟩ := hsn t
    unfold rowsAt
    rw [h1]
    simp only
    rw [h2]
    obtain ⟨r, hr⟩ : ∃ r, r ∈ snapRows [if t = 0 ∨ t = k then A else B] := by
      split
      · exact snapRows_one_ne hA
      · exact snapRows_one_ne hB
    exact List.ne_nil_of_mem hr
  have hruns : ∀ f : Int, 0 < f → ∃ s, timeTracking E snap 0 (some f) T n true = .ok s := by
    intro f hf
    refine (C06_partial hnn (fun t => ⟨_, (hsn t).choose_spec.1⟩) hrow le_rfl hf.ne' T n).1.2 ?_
    intro t h0 h1 h2 ⟨u, u0, u1, u2⟩ w hw
    exact ⟨by omega, hne w⟩
  have hrows : ∀ t, rowsAt snap t = snapRows [if t = 0 ∨ t = k then A else B] := by
    intro t
    obtain ⟨C, h1, h2⟩ := hsn t
    unfold rowsAt
    rw [h1]
    exact h2
  have base : ∀ s, timeTracking E snap 0 (some 1) T n true = .ok s →
      (∀ r ∈ s.table.rows, 0 ≤ r.val.1 ∧ r.val.1 < 1 ∧ (r.id = if r.val.1 = 0 then 0 else 1) ∧
        (r.idx = 0 → r.val.2 = if r.val.1 = 0 then a else b)) ∧
      ∀ t, 0 ≤ t → t < (1 : Int) → ∃ r ∈ s.table.rows, r.val.1 = t := by
    intro s hs
    obtain ⟨g, hg⟩ := C03_no_detection_lost_or_invented hnn hrow hs
    obtain ⟨m, hm⟩ := C01_identifiers_contiguous hnn hrow hs
    have hp := processed_eq (trackTimes 0 (some 1) T) hs
    have ht : trackTimes 0 (some 1) T = [0] := by
      have : trackTimes 0 (some 1) T = irange 0 1 := by simp [trackTimes]
      rw [this]
      decide
    rw [hp, ht, List.flatMap_cons, List.flatMap_nil, List.append_nil, hrows, if_pos (Or.inl rfl)] at hg
    obtain ⟨r0, hr0⟩ := snapRows_one_ne hA
    have hr0' : (⟨g 0 r0.id, r0.idx, (0, r0.val)⟩ : Row (Int × α)) ∈ s.table.rows := hg.mem_iff.2 (List.mem_map.2 ⟨r0, hr0, rfl⟩)
    have hall : ∀ r ∈ s.table.rows, r.id = g 0 0 ∧ r.val.1 = 0 ∧ (r.idx = 0 → r.val.2 = a) := by
      intro r hr
      obtain ⟨q, hq, rfl⟩ := List.mem_map.1 (hg.mem_iff.1 hr)
      obtain ⟨q1, q2⟩ := snapRows_one A q hq
      refine ⟨by simp only [q1], rfl, fun hi => ?_⟩
      have := (q2 hi).symm.trans hA
      simpa using this
    have h0 : g 0 0 = 0 := by
      have hpos : 0 < m := by
        have := (hm _).1 ⟨_, hr0', rfl⟩
        omega
      obtain ⟨r, hr, hr1⟩ := (hm 0).2 hpos
      rw [← (hall r hr).1, hr1]
    refine ⟨fun r hr => ?_, fun t t0 t1 => ⟨_, hr0', by simp only; omega⟩⟩
    obtain ⟨q1, q2, q3⟩ := hall r hr
    rw [q2, q1, h0]
    exact ⟨le_rfl, by norm_num, by simp, fun hi => by simp [q3 hi]⟩
  have step : ∀ f : Int, 1 ≤ f → f ≤ k → ∀ s s', timeTracking E snap 0 (some f) T n true = .ok s →
      timeTracking E snap 0 (some (f + 1)) T n true = .ok s' →
      (∀ r ∈ s.table.rows, 0 ≤ r.val.1 ∧ r.val.1 < f ∧ (r.id = if r.val.1 = 0 then 0 else 1) ∧
        (r.idx = 0 → r.val.2 = if r.val.1 = 0 then a else b)) →
      (∀ t, 0 ≤ t → t < f → ∃ r ∈ s.table.rows, r.val.1 = t) →
      ∃ g : Nat → Nat, s'.table.rows.Perm (s.table.rows ++ tagged g f (snapRows [if f = 0 ∨ f = k then A else B])) ∧
        g 0 = if f = k then 0 else 1 := by
    intro f f1 fk s s' hs hs' hi ht
    obtain ⟨C, hC, hCr⟩ := hsn f
    obtain ⟨q0, hq0, hq0t⟩ := ht 0 le_rfl (by omega)
    obtain ⟨ends, g, h1, h2, h3, h4⟩ := C04_linking_rule hnn hrow (by omega) (by omega) (by omega) hs hs' (List.ne_nil_of_mem hq0) hC
      (es := [if f = 0 ∨ f = k then A else B]) (by
        intro e he
        rw [List.mem_singleton] at he
        subst he
        split
        · rintro rfl; simp at hA
        · rintro rfl; simp at hB) hCr
    refine ⟨g, h3, ?_⟩
    have e0 : ∀ p, ends[0]? = some p → p = E.pos a := by
      intro p hp
      obtain ⟨r, hr, r1, r2, r3, -⟩ := h2 0 p hp
      obtain ⟨-, -, i1, i2⟩ := hi r hr
      have hz : r.val.1 = 0 := by
        by_contra hz
        rw [if_neg hz] at i1
        omega
      rw [← r3, i2 r2, if_pos hz]
    have e1 : ∀ p, ends[1]? = some p → p = E.pos b := by
      intro p hp
      obtain ⟨r, hr, r1, r2, r3, -⟩ := h2 1 p hp
      obtain ⟨-, -, i1, i2⟩ := hi r hr
      have hz : r.val.1 ≠ 0 := by
        intro hz
        rw [if_pos hz] at i1
        omega
      rw [← r3, i2 r2, if_neg hz]
    have hlen : ends.length = if f = 1 then 1 else 2 := by
      have hpos : 0 < ends.length := by
        have := (h1 _).1 ⟨q0, hq0, rfl⟩
        omega
      have hlt : ends.length ≤ 2 := by
        by_contra hgt
        obtain ⟨r, hr, hr2⟩ := (h1 2).2 (by omega)
        have := (hi r hr).2.2.1
        split at this <;> omega
      split
      · rename_i hf
        by_contra hne1
        obtain ⟨r, hr, hr2⟩ := (h1 1).2 (by omega)
        obtain ⟨i1, i2, i3, -⟩ := hi r hr
        rw [if_pos (by omega)] at i3
        omega
      · rename_i hf
        obtain ⟨r, hr, hr2⟩ := ht 1 (by norm_num) (by omega)
        obtain ⟨i1, i2, i3, -⟩ := hi r hr
        rw [if_neg (by omega)] at i3
        have := (h1 1).1 ⟨r, hr, i3⟩
        omega
    have hend0 : ends[0]? = some (E.pos a) := by
      have h : 0 < ends.length := by rw [hlen]; split <;> norm_num
      have := e0 _ (List.getElem?_eq_getElem h)
      rw [List.getElem?_eq_getElem h, this]
    by_cases hfk : f = k
    · rw [if_pos hfk]
      rw [if_pos (Or.inr hfk)] at h4
      have hh : (heads [A])[0]? = some a := by simp [heads, hA]
      obtain ⟨p, p1, p2, p3⟩ := h4.linked 0 a hh ⟨_, List.mem_of_getElem? hend0, haa⟩
      have hlt : g 0 < 2 := by
        have := (List.getElem?_eq_some_iff.1 p1).1
        rw [hlen] at this
        split at this <;> omega
      rcases (by omega : g 0 = 0 ∨ g 0 = 1) with h | h
      · exact h
      · rw [h] at p1
        rw [e1 p p1] at p3
        exact absurd p3 hab
    · rw [if_neg hfk]
      rw [if_neg (by omega)] at h4 h3
      have hh : (heads [B])[0]? = some b := by simp [heads, hB]
      by_cases hf1 : f = 1
      · rw [if_pos hf1] at hlen
        have hfr := h4.fresh 0 b hh (by
          rintro ⟨p, hp, hp'⟩
          obtain ⟨i, hi'⟩ := List.mem_iff_getElem?.1 hp
          have hil := (List.getElem?_eq_some_iff.1 hi').1
          have : i = 0 := by omega
          subst this
          rw [e0 p hi'] at hp'
          exact hba hp')
        obtain ⟨m, hm⟩ := C01_identifiers_contiguous hnn hrow hs'
        by_contra hne1
        obtain ⟨q, hq⟩ := snapRows_one_ne hB
        have hmem : (⟨g q.id, q.idx, (f, q.val)⟩ : Row (Int × α)) ∈ s'.table.rows :=
          h3.mem_iff.2 (List.mem_append_right _ (List.mem_map.2 ⟨q, hq, rfl⟩))
        rw [(snapRows_one B q hq).1] at hmem
        have hgm := (hm _).1 ⟨_, hmem, rfl⟩
        simp only at hgm
        obtain ⟨r, hr, hr1⟩ := (hm 1).2 (by omega)
        rcases List.mem_append.1 (h3.mem_iff.1 hr) with hr' | hr'
        · have := (h1 _).1 ⟨r, hr', hr1⟩
          omega
        · obtain ⟨q', hq', rfl⟩ := List.mem_map.1 hr'
          simp only [(snapRows_one B q' hq').1] at hr1
          exact hne1 hr1
      · rw [if_neg hf1] at hlen
        have h : 1 < ends.length := by omega
        have hend1 : ends[1]? = some (E.pos b) := by
          have := e1 _ (List.getElem?_eq_getElem h)
          rw [List.getElem?_eq_getElem h, this]
        obtain ⟨p, p1, p2, p3⟩ := h4.linked 0 b hh ⟨_, List.mem_of_getElem? hend1, hbb⟩
        have hlt := (List.getElem?_eq_some_iff.1 p1).1
        rcases (by omega : g 0 = 0 ∨ g 0 = 1) with h | h
        · rw [h] at p1
          rw [e0 p p1] at p3
          exact absurd p3 hba
        · exact h
  have key : ∀ m : Nat, ((m : Int) + 1 ≤ k) → ∀ s, timeTracking E snap 0 (some ((m : Int) + 1)) T n true = .ok s →
      (∀ r ∈ s.table.rows, 0 ≤ r.val.1 ∧ r.val.1 < (m : Int) + 1 ∧ (r.id = if r.val.1 = 0 then 0 else 1) ∧
        (r.idx = 0 → r.val.2 = if r.val.1 = 0 then a else b)) ∧
      ∀ t, 0 ≤ t → t < (m : Int) + 1 → ∃ r ∈ s.table.rows, r.val.1 = t := by
    intro m
    induction m with
    | zero =>
      intro _ s hs
      exact base s hs
    | succ m ih =>
      intro hmk s' hs'
      push_cast at hmk hs' ⊢
      obtain ⟨s, hs⟩ := hruns ((m : Int) + 1) (by omega)
      obtain ⟨i1, i2⟩ := ih (by omega) s hs
      obtain ⟨g, hp, hg⟩ := step ((m : Int) + 1) (by omega) (by omega) s s' hs hs' i1 i2
      rw [if_neg (by omega)] at hp hg
      constructor
      · intro r hr
        rcases List.mem_append.1 (hp.mem_iff.1 hr) with hr' | hr'
        · obtain ⟨j1, j2, j3⟩ := i1 r hr'
          exact ⟨j1, by omega, j3⟩
        · obtain ⟨q, hq, rfl⟩ := List.mem_map.1 hr'
          obtain ⟨q1, q2⟩ := snapRows_one B q hq
          have hz : (m : Int) + 1 ≠ 0 := by omega
          simp only [q1, hg, if_neg hz]
          refine ⟨by omega, by omega, trivial, fun hidx => ?_⟩
          have := (q2 hidx).symm.trans hB
          simpa using this
      · intro t t0 t1
        by_cases h : t < (m : Int) + 1
        · obtain ⟨r, hr, hrt⟩ := i2 t t0 h
          exact ⟨r, hp.mem_iff.2 (List.mem_append_left _ hr), hrt⟩
        · obtain ⟨q, hq⟩ := snapRows_one_ne hB
          exact ⟨_, hp.mem_iff.2 (List.mem_append_right _ (List.mem_map.2 ⟨q, hq, rfl⟩)), by simp only; omega⟩
  obtain ⟨m, rfl⟩ : ∃ m : Nat, k = (m : Int) + 1 := ⟨(k - 1).toNat, by omega⟩
  obtain ⟨s, hs⟩ := hruns ((m : Int) + 1) (by omega)
  obtain ⟨s', hs'⟩ := hruns ((m : Int) + 1 + 1) (by omega)
  obtain ⟨i1, i2⟩ := key m le_rfl s hs
  obtain ⟨g, hp, hg⟩ := step ((m : Int) + 1) (by omega) le_rfl s s' hs hs' i1 i2
  rw [if_pos (Or.inr rfl)] at hp
  rw [if_pos rfl] at hg
  refine ⟨s', hs', ?_, ?_⟩
  · intro r hr
    rcases List.mem_append.1 (hp.mem_iff.1 hr) with hr' | hr'
    · obtain ⟨j1, j2, j3, -⟩ := i1 r hr'
      refine ⟨j1, by omega, ?_⟩
      rw [j3]
      by_cases h : r.val.1 = 0
      · rw [if_pos h, if_pos (Or.inl h)]
      · rw [if_neg h, if_neg (by omega)]
    · obtain ⟨q, hq, rfl⟩ := List.mem_map.1 hr'
      simp only [(snapRows_one A q hq).1, hg]
      exact ⟨by omega, le_rfl, by simp⟩
  · intro t t0 t1
    by_cases h : t < (m : Int) + 1
    · obtain ⟨r, hr, hrt⟩ := i2 t t0 h
      exact ⟨r, hp.mem_iff.2 (List.mem_append_left _ hr), hrt⟩
    · obtain ⟨q, hq⟩ := snapRows_one_ne hA
      exact ⟨_, hp.mem_iff.2 (List.mem_append_right _ (List.mem_map.2 ⟨q, hq, rfl⟩)), by simp only; omega⟩

end

/-! ### the radius of the contour -/

theorem rlColat {lon lat : ℝ} (h : lon ^ 2 + lat ^ 2 ≤ 9 / 16) :
    0 ≤ (polar (lon, lat)).1 ∧ (polar (lon, lat)).1 ≤ Real.pi ∧ 1 - 9 / 32 * (Real.pi / 180) ^ 2 ≤ Real.cos (polar (lon, lat)).1 := by
  obtain ⟨h0, h1, h2⟩ := C34_great_circle (deg2rad lon) (deg2rad lat)
  refine ⟨h0, h1, ?_⟩
  show _ ≤ Real.cos (colat (deg2rad lon) (deg2rad lat))
  rw [h2]
  have hpi := Real.pi_pos
  have hpi4 := Real.pi_lt_four
  have c1 := Real.one_sub_sq_div_two_le_cos (x := deg2rad lon)
  have c2 := Real.one_sub_sq_div_two_le_cos (x := deg2rad lat)
  have hd : ∀ x, deg2rad x = x * (Real.pi / 180) := fun _ => rfl
  rw [hd lon] at c1 ⊢
  rw [hd lat] at c2 ⊢
  set d := Real.pi / 180 with hdd
  have d0 : 0 < d := by positivity
  have d1 : d < 1 := by rw [hdd]; linarith
  have l1 : lon ^ 2 ≤ 9 / 16 := by nlinarith [sq_nonneg lat]
  have l2 : lat ^ 2 ≤ 9 / 16 := by nlinarith [sq_nonneg lon]
  have dd : d ^ 2 ≤ 1 := by nlinarith
  have x0 : 0 ≤ (lon * d) ^ 2 := sq_nonneg _
  have y0 : 0 ≤ (lat * d) ^ 2 := sq_nonneg _
  have x1 : (lon * d) ^ 2 ≤ 1 := by rw [mul_pow]; nlinarith [sq_nonneg lon, sq_nonneg d]
  have y1 : (lat * d) ^ 2 ≤ 1 := by rw [mul_pow]; nlinarith [sq_nonneg lat, sq_nonneg d]
  have hsum : (lon * d) ^ 2 + (lat * d) ^ 2 ≤ 9 / 16 * d ^ 2 := by
    have : (lon * d) ^ 2 + (lat * d) ^ 2 = (lon ^ 2 + lat ^ 2) * d ^ 2 := by ring
    rw [this]
    exact mul_le_mul_of_nonneg_right h (sq_nonneg d)
  have hm : (1 - (lat * d) ^ 2 / 2) * (1 - (lon * d) ^ 2 / 2) ≤ Real.cos (lat * d) * Real.cos (lon * d) :=
    mul_le_mul c2 c1 (by linarith) (by linarith)
  nlinarith [mul_nonneg x0 y0]

theorem rlIntegrand {p q : ℝ × ℝ} {M w : ℝ} (hp : 0 ≤ p.1 ∧ p.1 ≤ Real.pi ∧ 1 - M ≤ Real.cos p.1) (hq : 0 ≤ q.1 ∧ q.1 ≤ Real.pi ∧ 1 - M ≤ Real.cos q.1)
    (hw : |wrap (q.2 - p.2)| ≤ w) : |integrand p q| ≤ M * w := by
  unfold integrand
  have hm : 1 - M ≤ Real.cos (p.1 + (q.1 - p.1) / 2) := by
    rcases le_total p.1 q.1 with h | h
    · exact hq.2.2.trans (Real.cos_le_cos_of_nonneg_of_le_pi (by linarith) hq.2.1 (by linarith))
    · exact hp.2.2.trans (Real.cos_le_cos_of_nonneg_of_le_pi (by linarith) hp.2.1 (by linarith))
  have h1 : 0 ≤ 1 - Real.cos (p.1 + (q.1 - p.1) / 2) := by have := Real.cos_le_one (p.1 + (q.1 - p.1) / 2); linarith
  rw [abs_mul, abs_of_nonneg h1]
  exact mul_le_mul (by linarith) hw (abs_nonneg _) (by linarith)

/-- the radius is less than a degree of longitude at the equator -/
theorem rlRadius : Real.sqrt (areaPolygon (lvPts (1 / 4)) / Real.pi) ≤ Real.pi / 180 * 6371 := by
  have hpi := Real.pi_pos
  obtain ⟨θ, t0, t1, a1, a2, a3, a4, a5, a6⟩ := polar_hex (p := 3 / 4) (q := 1 / 2) (r := 1 / 4) (by norm_num) (by norm_num) (by norm_num)
    (by norm_num) (by norm_num) (by norm_num)
  have c1 := rlColat (lon := 3 / 4) (lat := 0) (by norm_num)
  have c2 := rlColat (lon := 1 / 2) (lat := 1 / 4) (by norm_num)
  have c3 := rlColat (lon := -(1 / 2)) (lat := 1 / 4) (by norm_num)
  have c4 := rlColat (lon := -(3 / 4)) (lat := 0) (by norm_num)
  have c5 := rlColat (lon := -(1 / 2)) (lat := -(1 / 4)) (by norm_num)
  have c6 := rlColat (lon := 1 / 2) (lat := -(1 / 4)) (by norm_num)
  have w : ∀ {d v : ℝ} (k : ℤ), d = v + 2 * Real.pi * k → -Real.pi ≤ v → v < 0 → |wrap d| ≤ -v := by
    intro d v k h1 h2 h3
    rw [wrap_unique (k := k) (by linarith) h2 (by linarith), abs_of_neg h3]
  have i1 := rlIntegrand (w := -(θ - Real.pi / 2)) c1 c2 (by rw [a1, a3]; exact w (v := θ - Real.pi / 2) 0 (by simp) (by linarith) (by linarith))
  have i2 := rlIntegrand (w := -(-2 * θ)) c2 c3 (by rw [a3, a4]; exact w (v := -2 * θ) 1 (by push_cast; ring) (by linarith) (by linarith))
  have i3 := rlIntegrand (w := -(θ - Real.pi / 2)) c3 c4 (by rw [a4, a2]; exact w (v := θ - Real.pi / 2) 0 (by push_cast; ring) (by linarith) (by linarith))
  have i4 := rlIntegrand (w := -(θ - Real.pi / 2)) c4 c5 (by rw [a2, a5]; exact w (v := θ - Real.pi / 2) 0 (by push_cast; ring) (by linarith) (by linarith))
  have i5 := rlIntegrand (w := -(-2 * θ)) c5 c6 (by rw [a5, a6]; exact w (v := -2 * θ) 0 (by push_cast; ring) (by linarith) (by linarith))
  have i6 := rlIntegrand (w := -(θ - Real.pi / 2)) c6 c1 (by rw [a6, a1]; exact w (v := θ - Real.pi / 2) 0 (by push_cast; ring) (by linarith) (by linarith))
  have hI : |integral ((lvHex (3 / 4) (1 / 2) (1 / 4)).map polar)| ≤ 9 / 32 * (Real.pi / 180) ^ 2 * (2 * Real.pi) := by
    unfold integral lvHex
    simp only [List.map_cons, List.map_nil, List.tail_cons, List.zipWith_cons_cons, List.zipWith_nil_right, List.sum_cons, List.sum_nil]
    rw [abs_le] at i1 i2 i3 i4 i5 i6 ⊢
    constructor <;> linarith [i1.1, i1.2, i2.1, i2.2, i3.1, i3.2, i4.1, i4.2, i5.1, i5.2, i6.1, i6.2]
  have hA : areaPolygon (lvPts (1 / 4)) ≤ (6378137 / 1000) ^ 2 * (9 / 32 * (Real.pi / 180) ^ 2 * (2 * Real.pi)) := by
    rw [lvArea_eq, show (1 / 2 + 1 / 4 : ℝ) = 3 / 4 by norm_num, areaPolygon_eq]
    exact mul_le_mul_of_nonneg_left hI (by norm_num)
  rw [Real.sqrt_le_left (by positivity), div_le_iff₀ hpi]
  refine hA.trans ?_
  have : (0 : ℝ) < (Real.pi / 180) ^ 2 * Real.pi := by positivity
  nlinarith

/-! ### the two maps -/

def rlqZ (left : Bool) : Cntr.NdArr (Option ℚ) :=
  ⟨3, 4, fun r c => some (((if left then [[0, -3, 0, 0], [-3, 2, 1, 0], [0, -3, 0, 0]] else [[0, 0, -3, 0], [0, 1, 2, -3], [0, 0, -3, 0]]).getD r []).getD c 0)⟩

/-- two adjacent elevated grid points, the higher one to the left or to the right -/
noncomputable def rlField (left : Bool) : Fields :=
  ⟨lvField.X, lvField.Y, (rlqZ left).castO (Rat.castHom ℝ)⟩

theorem rlField_ok (b : Bool) : (rlField b).Ok := ⟨rfl, rfl, fun M hM => by cases hM⟩

theorem rlField_rect (b : Bool) : (rlField b).Rectilinear := lvField_rect

theorem rlq_quarter (b : Bool) : Cntr.extractContours lvqX lvqY (rlqZ b) (3 / 4) 50 Cntr.exMem =
    .ok ([[some (-1 / 2, -1 / 4), some (1 / 2, -1 / 4), some (3 / 4, 0), some (1 / 2, 1 / 4), some (-1 / 2, 1 / 4), some (-3 / 4, 0),
      some (-1 / 2, -1 / 4)]].map .points, [.codes [1, 2, 2, 2, 2, 2, 2]]) := by
  cases b <;> decide +kernel

theorem rlContours (L : Libs) (b : Bool) : contourList L (rlField b) (3 / 4) = [(lvPts (1 / 4)).map some] := by
  obtain ⟨hX, hY, -⟩ := lvField_cast
  have hd : 4 * ((rlField b).data.cols * (rlField b).data.rows) + 2 = 4 * (4 * 3) + 2 := rfl
  obtain ⟨cds, h⟩ := Cntr.extract_cast (Rat.castHom ℝ) Rat.cast_strictMono (X := lvqX) (Y := lvqY) (Z := rlqZ b)
    (mem' := L.mem (rlField b).data (3 / 4)) (fuel' := 4 * (4 * 3) + 2)
    ⟨rfl, rfl, fun M hM => by cases hM⟩ (3 / 4) (show 4 * (4 * 3) + 2 ≤ 50 by decide) (show 4 * (4 * 3) + 2 ≤ 4 * (4 * 3) + 2 from le_rfl) (rlq_quarter b)
  have hl : Rat.castHom ℝ (3 / 4) = 3 / 4 := by norm_num
  rw [hX, hY, hl] at h
  have h : Cntr.extractContours (rlField b).X (rlField b).Y (rlField b).data (3 / 4) (4 * (4 * 3) + 2) (L.mem (rlField b).data (3 / 4)) = _ := h
  unfold contourList contoursOf
  rw [hd, h]
  simp only [vertsOf, lvPts, List.map_cons, List.map_nil, Option.map_some, List.filterMap_cons, List.filterMap_nil]
  norm_num

theorem rlValue (b : Bool) : ∃ e, maskDataInContour 3 4 exWindow.rel.toFinset (cut exWindow (rlField b).data).get = .ok e ∧ e.maxima ≠ 0 ∧
    e.row = 1 ∧ e.col = if b then 1 else 2 := by
  have hv : ∀ c, c = 1 ∨ c = 2 → (cut exWindow (rlField b).data).get 1 c = some (if (c = 1) = (b = true) then 2 else 1) := by
    intro c hc
    rcases hc with rfl | rfl <;> cases b <;> simp [cut, exWindow, rlField, rlqZ, Cntr.NdArr.castO]
  obtain ⟨e, he⟩ := (C42_defined 3 4 (cut exWindow (rlField b).data).get
    fun r c => decide (((r : Int), (c : Int)) ∈ fillHoles 3 4 exWindow.rel.toFinset)).1.2
      ⟨1, 1, _, by norm_num, by norm_num, by rw [exFill]; decide, hv 1 (Or.inl rfl)⟩
  refine ⟨e, he, ?_⟩
  obtain ⟨x, ⟨h1, h2, h3, h4⟩, h5, _⟩ := C42_extremum _ _ _ _ e he
  have ht : total 3 4 (cut exWindow (rlField b).data).get (fun r c => decide (((r : Int), (c : Int)) ∈ fillHoles 3 4 exWindow.rel.toFinset)) = 3 := by
    rw [exFill]
    unfold total
    cases b <;> simp [Finset.sum_range_succ, cut, exWindow, rlField, rlqZ, Cntr.NdArr.castO] <;> norm_num
  obtain ⟨g1, g2, g3, g4⟩ := h5 (by rw [ht]; norm_num)
  rw [exFill] at h3
  simp only [decide_eq_true_eq, Finset.mem_insert, Finset.mem_singleton, Prod.mk.injEq] at h3
  have hr : e.row = 1 := by omega
  have hc : e.col = 1 ∨ e.col = 2 := by omega
  rw [hr, hv _ hc] at h4
  injection h4 with h4
  refine ⟨by rw [g2]; exact g3.ne', hr, ?_⟩
  have htop := g4 1 (if b then 1 else 2) 2 ⟨by norm_num, by split <;> norm_num, by rw [exFill]; cases b <;> decide,
    by rw [hv _ (by cases b <;> simp)]; cases b <;> simp⟩
  rw [← h4] at htop
  rcases hc with h | h <;> rw [h] at htop ⊢ <;> cases b <;> simp at htop ⊢

theorem rlData (b : Bool) {e : Extremum ℝ} (he : maskDataInContour 3 4 exWindow.rel.toFinset (cut exWindow (rlField b).data).get = .ok e) :
    dataInContour lvLibs (rlField b) (lvPts (1 / 4)) = .ok ⟨exWindow, e⟩ := by
  have hgrid : (⟨(rlField b).data.rows, (rlField b).data.cols, (rlField b).X.get, (rlField b).Y.get⟩ : Grid ℝ) = lvGrid := rfl
  have s0 : (0 : ℝ) < 1 / 4 := by norm_num
  have s1 : (1 / 4 : ℝ) < 1 / 2 := by norm_num
  unfold dataInContour
  rw [hgrid, lvMean]
  have hm : masked lvGrid.ny lvGrid.nx (lvGrid.mask (-(1 / 14), -(1 / 4 / 7))) ≠ [] := by
    show masked 3 4 (lvGrid.mask (-(1 / 14), -(1 / 4 / 7))) ≠ []
    rw [lvMasked s0 s1]
    simp
  have hmap : ((lvPts (1 / 4)).mapM fun v => codeIndex lvGrid.ny lvGrid.nx (lvGrid.mask (-(1 / 14), -(1 / 4 / 7)))
      (lvLibs.ballTree lvGrid (-(1 / 14), -(1 / 4 / 7)) v)) = .ok [(1, 1), (1, 2), (1, 2), (1, 2), (1, 1), (1, 1), (1, 1)] := by
    rw [mapM_ok (g := fun v : ℝ × ℝ => if v.1 < 0 then ((1 : Nat), (1 : Nat)) else (1, 2))]
    · unfold lvPts
      norm_num
    · exact fun v hv => lvCode s0 s1 v hv
  simp only [hm, if_false, bind, Except.bind, pure, Except.pure, hmap]
  simp only [List.map_cons, List.map_nil]
  have hw : getWindow (rlField b).data.rows (rlField b).data.cols (((1 : Nat) : Int), ((1 : Nat) : Int))
      [(((1 : Nat) : Int), ((2 : Nat) : Int)), (((1 : Nat) : Int), ((2 : Nat) : Int)), (((1 : Nat) : Int), ((2 : Nat) : Int)),
      (((1 : Nat) : Int), ((1 : Nat) : Int)), (((1 : Nat) : Int), ((1 : Nat) : Int)), (((1 : Nat) : Int), ((1 : Nat) : Int))] .auto =
      exWindow := exGetWindow
  rw [hw, if_pos (by
    show (exWindow.rel.all fun q => decide (0 ≤ q.1 ∧ q.1 < ((3 : Nat) : Int) ∧ 0 ≤ q.2 ∧ q.2 < ((4 : Nat) : Int))) = true
    decide)]
  have he' : maskDataInContour (cut exWindow (rlField b).data).rows (cut exWindow (rlField b).data).cols exWindow.rel.toFinset
    (cut exWindow (rlField b).data).get = .ok e := he
  rw [he']

/-- the eddy of each map: its maximum is at the left or the right grid point -/
theorem rlStored (b : Bool) : ∃ e : EddyObj, examine lvCriteria lvLibs (rlField b) (3 / 4) ((lvPts (1 / 4)).map some) = .ok (.stored e) ∧
    0 < e.radius ∧ e.radius ≤ Real.pi / 180 * 6371 ∧ e.maxima.2 = (0, if b then -(1 / 2) else 1 / 2) := by
  obtain ⟨x, hx, hx0, xr, xc⟩ := rlValue b
  have s0 : (0 : ℝ) < 1 / 4 := by norm_num
  have s1 : (1 / 4 : ℝ) < 1 / 2 := by norm_num
  obtain ⟨v, hv⟩ := lvSim (1 / 4)
  obtain ⟨c1, c2, c3⟩ := lvCriteria_ok (s := 1 / 4) (Or.inl rfl)
  refine ⟨⟨lvPts (1 / 4), 3 / 4, areaPolygon (lvPts (1 / 4)), Real.sqrt (areaPolygon (lvPts (1 / 4)) / Real.pi),
    (max (1 / 2 + 1 / 4) (lvQ (1 / 4)), min (1 / 2 + 1 / 4) (lvQ (1 / 4)), angleOf (lvConic (1 / 4))), v,
    eccentricity (max (1 / 2 + 1 / 4) (lvQ (1 / 4))) (min (1 / 2 + 1 / 4) (lvQ (1 / 4))), meanPt (lvPts (1 / 4)), x.sign,
    maximaOf (rlField b) ⟨exWindow, x⟩, none, some 0⟩,
    ?_, Real.sqrt_pos.2 (div_pos (lvArea_pos s0 s1) Real.pi_pos), rlRadius, ?_⟩
  · rw [examine_stored]
    refine ⟨lvSkips s0 s1, rfl, lvCurve (1 / 4), ⟨exWindow, x⟩, ?_⟩
    refine ⟨rfl, rfl, rfl, rfl, rfl, ?_, lvFit s0, lvFinite s0, c2, rfl, ?_, ?_, ?_, rlData b hx, rfl, rfl, hx0, Or.inl ⟨rfl, rfl, rfl⟩⟩
    · rw [lvMean]
      exact c1
    · rintro ⟨u, hu, h1⟩
      simp only at hu
      unfold eccentricity at hu
      split at hu
      · cases hu
      · split at hu
        · cases hu
        · injection hu with hu
          have h2 : u ≤ 1 := by
            rw [← hu]
            apply Real.sqrt_le_one.2
            have : 0 ≤ |min (1 / 2 + 1 / 4) (lvQ (1 / 4))| ^ 2 / |max (1 / 2 + 1 / 4) (lvQ (1 / 4))| ^ 2 := by positivity
            linarith
          exact absurd h1 (not_lt.2 h2)
    · show liftFr (similarity 100 (lvPts (1 / 4)) (lvCurve (1 / 4))) = .ok v
      rw [hv]
      rfl
    · rintro ⟨u, hu, h1⟩
      simp only at hu
      subst hu
      have := (similarity_unit hv).2
      linarith
  · simp only [maximaOf, xr, xc]
    cases b <;> simp [cut, exWindow, rlField, lvField] <;> norm_num

theorem rlFound (b : Bool) : ∃ e : EddyObj, foundIn lvCriteria lvLibs (rlField b) (3 / 4) = [e] ∧ 0 < e.radius ∧ e.radius ≤ Real.pi / 180 * 6371 ∧
    e.maxima.2 = (0, if b then -(1 / 2) else 1 / 2) ∧ ∃ x, (detectLevel lvCriteria lvLibs (rlField b) Regs.empty (3 / 4)).2 = .ok x := by
  obtain ⟨e, h1, h2, h3, h4⟩ := rlStored b
  have c1 := rlContours lvLibs b
  refine ⟨e, ?_, h2, h3, h4, ?_⟩
  · unfold foundIn
    have hse : storedEddy lvCriteria lvLibs (rlField b) (3 / 4) ((lvPts (1 / 4)).map some) = some e := by unfold storedEddy; rw [h1]
    rw [c1, List.filterMap_cons_some hse, List.filterMap_nil]
  · rw [detectLevel_measures (rlField_ok b), detectOneLevel_ok]
    · exact ⟨_, rfl⟩
    · intro m hm
      unfold levelMeasures at hm
      rw [c1] at hm
      simp only [List.map_cons, List.map_nil, List.mem_singleton] at hm
      subst hm
      rw [verdict_measures, h1]
      exact ⟨_, rfl⟩

theorem rlDist {d : ℝ} (hd : d = 1 ∨ d = -1) {x y : ℝ} (h : x - y = d) : haversine (ballTreePoint 0 x) (ballTreePoint 0 y) = Real.pi / 180 := by
  have hpi := Real.pi_pos
  unfold haversine ballTreePoint
  simp only [zero_mul, sub_self, mul_zero, Real.sin_zero, Real.cos_zero, one_mul, ← sub_mul, h]
  have hs : Real.sin (1 / 2 * (d * (Real.pi / 180))) ^ 2 = Real.sin (Real.pi / 360) ^ 2 := by
    rcases hd with rfl | rfl
    · congr 2; ring
    · rw [show (1 / 2 * (-1 * (Real.pi / 180)) : ℝ) = -(Real.pi / 360) by ring, Real.sin_neg, neg_sq]
  have hs0 : 0 ≤ Real.sin (Real.pi / 360) := Real.sin_nonneg_of_nonneg_of_le_pi (by positivity) (by linarith)
  rw [hs]
  norm_num
  rw [Real.sqrt_sq hs0, Real.arcsin_sin (by linarith) (by linarith)]
  ring

/-- **C07** is false from the maps on. Two maps with one eddy each, one degree and so more than their radii apart: with the first map at the times 0
and `k` and the second at the times between them, the run succeeds and the eddy of the time `k` continues the track 0, which was last seen `k` times
before, for any `ntimes`. -/
theorem C07_refuted_from_data : ∃ (c : Criteria ℝ) (L : Libs) (A B : Fields) (l : ℝ), A.Ok ∧ A.Rectilinear ∧ B.Ok ∧ B.Rectilinear ∧ L.Nearest ∧
    (∃ e e' : EddyObj, foundIn c L A l = [e] ∧ foundIn c L B l = [e'] ∧ ¬ NearEddy e e' ∧ ¬ NearEddy e' e) ∧
    ∀ (prunes : Bool) (nn : List (ℝ × ℝ) → ℝ × ℝ → Nat), IsNN haversine nn → ∀ (T : Nat) (ntimes k : Int), 2 ≤ k → ∃ s : LoopState Cols,
      (trackFields (colsEnv prunes nn) c L (fun t => if t = 0 ∨ t = k then A else B) [l] 0 (some (k + 1)) T ntimes true Regs.empty).2 = .ok s ∧
      (∀ r ∈ s.table.rows, 0 ≤ r.val.1 ∧ r.val.1 ≤ k ∧ r.id = if r.val.1 = 0 ∨ r.val.1 = k then 0 else 1) ∧
      ∀ t, 0 ≤ t → t ≤ k → ∃ r ∈ s.table.rows, r.val.1 = t := by
  obtain ⟨e, f1, p1, q1, m1, r1⟩ := rlFound true
  obtain ⟨e', f2, p2, q2, m2, r2⟩ := rlFound false
  simp only [if_true] at m1
  simp only [Bool.false_eq_true, if_false] at m2
  have d12 : haversine (ballTreePoint 0 (-(1 / 2))) (ballTreePoint 0 (1 / 2)) = Real.pi / 180 := rlDist (Or.inr rfl) (by norm_num)
  have d21 : haversine (ballTreePoint 0 (1 / 2)) (ballTreePoint 0 (-(1 / 2))) = Real.pi / 180 := rlDist (Or.inl rfl) (by norm_num)
  refine ⟨lvCriteria, lvLibs, rlField true, rlField false, 3 / 4, rlField_ok _, rlField_rect _, rlField_ok _, rlField_rect _, lvLibs_nearest,
    ⟨e, e', f1, f2, ?_, ?_⟩, ?_⟩
  · unfold NearEddy EddyObj.place
    rw [← C83_great_circle, m1, m2]
    simp only
    rw [d12]
    linarith
  · unfold NearEddy EddyObj.place
    rw [← C83_great_circle, m1, m2]
    simp only
    rw [d21]
    linarith
  intro prunes nn hnn T ntimes k hk
  have hok : ∀ t : Int, (if t = 0 ∨ t = k then rlField true else rlField false).Ok := by
    intro t
    split <;> exact rlField_ok _
  have hret : ∀ t : Int, ∃ x, (detectLevel lvCriteria lvLibs (if t = 0 ∨ t = k then rlField true else rlField false) Regs.empty (3 / 4)).2 = .ok x := by
    intro t
    split
    · exact r1
    · exact r2
  rw [(trackFields_pure _ lvCriteria lvLibs (fun t _ => hok t) ⟨rfl, rfl⟩).1]
  have hhead : ∀ b (e : EddyObj), foundIn lvCriteria lvLibs (rlField b) (3 / 4) = [e] → ∃ v, (tableRows e.data).head? = some v ∧ v ∈ tableRows e.data := by
    intro b e he
    have := foundIn_ne (c := lvCriteria) (L := lvLibs) (rlField_ok b) (3 / 4) e (by rw [he]; simp)
    cases h : tableRows e.data with
    | nil => exact absurd h this
    | cons v l => exact ⟨v, rfl, List.mem_cons_self⟩
  obtain ⟨a, ha, ha'⟩ := hhead true e f1
  obtain ⟨b, hb, hb'⟩ := hhead false e' f2
  obtain ⟨ay, ax, ar, -⟩ := columns_read ha'
  obtain ⟨by', bx, br, -⟩ := columns_read hb'
  have pa : (colsEnv prunes nn).pos a = ballTreePoint 0 (-(1 / 2)) := by
    show ballTreePoint (column "maxima_y" a) (column "maxima_x" a) = _
    rw [ay, ax, m1]
  have pb : (colsEnv prunes nn).pos b = ballTreePoint 0 (1 / 2) := by
    show ballTreePoint (column "maxima_y" b) (column "maxima_x" b) = _
    rw [by', bx, m2]
  have ra : (colsEnv prunes nn).radius a = e.radius := ar
  have rb : (colsEnv prunes nn).radius b = e'.radius := br
  have hself : ∀ p : ℝ × ℝ, (colsEnv prunes nn).dist p p = 0 := by intro p; show haversine p p = 0; simp [haversine]
  refine two_places (E := colsEnv prunes nn) (A := tableRows e.data) (B := tableRows e'.data) (a := a) (b := b) hnn hk ha hb
    (fun t C hC => pureSnapshot_rows hC) ?_ ?_ ?_ ?_ ?_ T ntimes
  · intro t
    obtain ⟨C, hC⟩ := snapshot_returns (E := colsEnv prunes nn) (hok t) gpLevel (hret t)
    refine ⟨C, hC, ?_⟩
    rw [snapshot_one_level (hok t) gpLevel hC]
    split
    · have : (contourList lvLibs (rlField true) (3 / 4)).filterMap (storedEddy lvCriteria lvLibs (rlField true) (3 / 4)) = [e] := f1
      rw [this]
      rfl
    · have : (contourList lvLibs (rlField false) (3 / 4)).filterMap (storedEddy lvCriteria lvLibs (rlField false) (3 / 4)) = [e'] := f2
      rw [this]
      rfl
  · rw [hself, zero_mul, ra]
    exact p1
  · rw [hself, zero_mul, rb]
    exact p2
  · rw [pa, pb, rb]
    show ¬ haversine _ _ * 6371 < _
    rw [d21]
    linarith
  · rw [pa, pb, ra]
    show ¬ haversine _ _ * 6371 < _
    rw [d12]
    linarith

end Trackeddy
