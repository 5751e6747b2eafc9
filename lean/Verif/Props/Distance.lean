import Verif.Model.Distance
import Verif.Spec.Sphere
import Verif.Props.Tracking
import Verif.Props.Snapshot
import Mathlib.Geometry.Euclidean.Angle.Unoriented.TriangleInequality
import Mathlib.Tactic.Linarith
import Mathlib.Tactic.Ring
import Mathlib.Tactic.FieldSimp
import Mathlib.Data.List.MinMax

/-!
C83: eddies are compared by their great-circle distance (trackeddy/utils.py:96-115).
-/
namespace Trackeddy
open Spec InnerProductGeometry

variable {α : Type}

theorem inner_onSphere (a b a' b' : ℝ) :
    inner ℝ (onSphere a b) (onSphere a' b') = 1 - 2 * (Real.sin (1 / 2 * (a * (Real.pi / 180) - a' * (Real.pi / 180))) ^ 2 +
      Real.cos (a * (Real.pi / 180)) * Real.cos (a' * (Real.pi / 180)) *
        Real.sin (1 / 2 * (b * (Real.pi / 180) - b' * (Real.pi / 180))) ^ 2) := by
  unfold onSphere
  generalize a * (Real.pi / 180) = x
  generalize a' * (Real.pi / 180) = x'
  generalize b * (Real.pi / 180) = y
  generalize b' * (Real.pi / 180) = y'
  have h1 : ∀ t : ℝ, Real.sin (1 / 2 * t) ^ 2 = (1 - Real.cos t) / 2 := by
    intro t
    have := Real.cos_two_mul' (1 / 2 * t)
    have h2 := Real.sin_sq_add_cos_sq (1 / 2 * t)
    rw [show 2 * (1 / 2 * t) = t by ring] at this
    linarith
  rw [h1, h1, Real.cos_sub, Real.cos_sub]
  simp only [PiLp.inner_apply, Fin.sum_univ_three]
  simp
  ring

theorem norm_onSphere (a b : ℝ) : ‖onSphere a b‖ = 1 := by
  have h : ‖onSphere a b‖ ^ 2 = 1 := by
    rw [← real_inner_self_eq_norm_sq, inner_onSphere]
    simp
  nlinarith [norm_nonneg (onSphere a b)]

theorem two_arcsin_sqrt {c : ℝ} (h1 : -1 ≤ c) (h2 : c ≤ 1) : 2 * Real.arcsin (Real.sqrt ((1 - c) / 2)) = Real.arccos c := by
  obtain ⟨t, ht⟩ : ∃ t, t = Real.arccos c := ⟨_, rfl⟩
  have hc : Real.cos t = c := by rw [ht]; exact Real.cos_arccos h1 h2
  have h0 : 0 ≤ t := by rw [ht]; exact Real.arccos_nonneg _
  have hp : t ≤ Real.pi := by rw [ht]; exact Real.arccos_le_pi _
  have hs : (1 - c) / 2 = Real.sin (t / 2) ^ 2 := by
    have e := Real.cos_two_mul' (t / 2)
    have e2 := Real.sin_sq_add_cos_sq (t / 2)
    rw [show 2 * (t / 2) = t by ring] at e
    linarith
  have hn : 0 ≤ Real.sin (t / 2) := Real.sin_nonneg_of_nonneg_of_le_pi (by linarith) (by linarith)
  rw [hs, Real.sqrt_sq hn, Real.arcsin_sin (by linarith [Real.pi_pos]) (by linarith), ← ht]
  ring

/-- **C83** the distance of two maxima is the angle at the centre of the Earth between the points with the reported latitudes
and longitudes. -/
theorem C83_great_circle (y x y' x' : ℝ) :
    haversine (ballTreePoint y x) (ballTreePoint y' x') = centralAngle y x y' x' := by
  unfold centralAngle angle haversine ballTreePoint
  rw [norm_onSphere, norm_onSphere, mul_one, div_one]
  have hi := inner_onSphere y x y' x'
  have hb := abs_le.mp (abs_real_inner_le_norm (onSphere y x) (onSphere y' x'))
  rw [norm_onSphere, norm_onSphere, mul_one] at hb
  rw [← two_arcsin_sqrt hb.1 hb.2]
  congr 3
  rw [hi]
  ring

theorem direction_eq (p : ℝ × ℝ) : ballTreePoint (p.1 * (180 / Real.pi)) (p.2 * (180 / Real.pi)) = p := by
  unfold ballTreePoint
  have := Real.pi_ne_zero
  ext <;> simp <;> field_simp

theorem haversine_eq (p q : ℝ × ℝ) : haversine p q =
    centralAngle (p.1 * (180 / Real.pi)) (p.2 * (180 / Real.pi)) (q.1 * (180 / Real.pi)) (q.2 * (180 / Real.pi)) := by
  rw [← C83_great_circle, direction_eq, direction_eq]

theorem haversine_symm (p q : ℝ × ℝ) : haversine p q = haversine q p := by
  rw [haversine_eq, haversine_eq]
  exact angle_comm _ _

theorem haversine_triangle (p q r : ℝ × ℝ) : haversine p r ≤ haversine p q + haversine q r := by
  rw [haversine_eq, haversine_eq, haversine_eq]
  exact angle_le_angle_add_angle _ _ _

/-- **C83** the distance is symmetric, obeys the triangle inequality, lies between 0 and half a circumference and vanishes
exactly for points at the same place of the sphere. -/
theorem C83_metric (p q r : ℝ × ℝ) :
    haversine p q = haversine q p ∧ haversine p r ≤ haversine p q + haversine q r ∧ 0 ≤ haversine p q ∧
      haversine p q ≤ Real.pi ∧ (haversine p q = 0 ↔ onSphere (p.1 * (180 / Real.pi)) (p.2 * (180 / Real.pi)) =
        onSphere (q.1 * (180 / Real.pi)) (q.2 * (180 / Real.pi))) := by
  refine ⟨haversine_symm p q, haversine_triangle p q r, ?_, ?_, ?_⟩
  · rw [haversine_eq]; exact angle_nonneg _ _
  · rw [haversine_eq]; exact angle_le_pi _ _
  · rw [haversine_eq]
    unfold centralAngle
    rw [← inner_eq_mul_norm_iff_angle_eq_zero (by rw [← norm_ne_zero_iff, norm_onSphere]; exact one_ne_zero)
      (by rw [← norm_ne_zero_iff, norm_onSphere]; exact one_ne_zero), norm_onSphere, norm_onSphere, mul_one]
    exact inner_eq_one_iff_of_norm_eq_one (norm_onSphere _ _) (norm_onSphere _ _)

/-- **C83** whole turns of longitude do not matter: 359.5° and -0.5° are the same place. -/
theorem C83_turns (y x y' x' : ℝ) (n m : ℤ) :
    haversine (ballTreePoint y (x + n * 360)) (ballTreePoint y' (x' + m * 360)) =
      haversine (ballTreePoint y x) (ballTreePoint y' x') := by
  have h : ∀ (y x : ℝ) (n : ℤ), onSphere y (x + n * 360) = onSphere y x := by
    intro y x n
    unfold onSphere
    rw [show (x + n * 360) * (Real.pi / 180) = x * (Real.pi / 180) + n * (2 * Real.pi) by ring,
      Real.cos_add_int_mul_two_pi, Real.sin_add_int_mul_two_pi]
  rw [C83_great_circle, C83_great_circle]
  unfold centralAngle
  rw [h, h]

/-- across the date line: half a degree on each side along the equator -/
example : haversine (ballTreePoint 0 (359.5)) (ballTreePoint 0 0.5) = Real.pi / 180 := by
  have h := C83_turns 0 (-0.5) 0 0.5 1 0
  rw [show (-0.5 + ((1 : ℤ) : ℝ) * 360 : ℝ) = 359.5 by norm_num, show (0.5 + ((0 : ℤ) : ℝ) * 360 : ℝ) = 0.5 by norm_num] at h
  rw [h]
  unfold haversine ballTreePoint
  have hp := Real.pi_pos
  simp only [zero_mul, sub_self, mul_zero, Real.sin_zero, Real.cos_zero]
  rw [show (1 / 2 * (-0.5 * (Real.pi / 180) - 0.5 * (Real.pi / 180))) = -(Real.pi / 360) by ring, Real.sin_neg]
  have hs : 0 ≤ Real.sin (Real.pi / 360) := Real.sin_nonneg_of_nonneg_of_le_pi (by positivity) (by linarith)
  rw [show (0 : ℝ) ^ 2 + 1 * 1 * (-Real.sin (Real.pi / 360)) ^ 2 = Real.sin (Real.pi / 360) ^ 2 by ring, Real.sqrt_sq hs,
    Real.arcsin_sin (by linarith) (by linarith)]
  ring

/-! ### C83 in the tracking and in the merging of levels -/

/-- **C83** in the tracking: an eddy found at time `f` continues a track exactly if there is a track whose last known maximum is at a
great-circle distance, in km on a sphere of radius 6371 km, below the radius of the eddy; it then continues a track whose last known
maximum (`last`, the rows at the latest time of each track) is nearest on the sphere. -/
theorem C83_tracking {prunes : Bool} {my mx radius : α → ℝ} {ell gau : α → Option ℝ} {nn : List (ℝ × ℝ) → ℝ × ℝ → Nat} (hnn : IsNN haversine nn)
    {snap : Int → Except PyErr (Tbl α)} (hsnap : ∀ t C, snap t = .ok C → SnapRows C.rows)
    {t0 f : Int} (hf : f ≠ 0) (hf1 : f + 1 ≠ 0) (ht : t0 ≤ f) {T : Nat} {ntimes : Int} {s s' : LoopState α}
    (h : timeTracking (realEnv prunes my mx radius ell gau nn) snap t0 (some f) T ntimes true = .ok s)
    (h' : timeTracking (realEnv prunes my mx radius ell gau nn) snap t0 (some (f + 1)) T ntimes true = .ok s')
    (hne : s.table.rows ≠ []) {C : Tbl α} (hC : snap f = .ok C) {es : List (Eddy α)}
    (hes : ∀ e ∈ es, e ≠ []) (hrows : C.rows = snapRows es) :
    ∃ (last : List (Row (Int × α))) (a : Nat → Nat),
      Contiguous s.table.rows last.length ∧
      (∀ (i : Nat) r, last[i]? = some r → r ∈ s.table.rows ∧ r.id = i ∧ r.idx = 0 ∧
        ∀ q ∈ s.table.rows, q.id = i → q.val.1 ≤ r.val.1) ∧
      s'.table.rows.Perm (s.table.rows ++ tagged a f (snapRows es)) ∧
      ∀ (c : Nat) (v : α), (heads es)[c]? = some v →
        (a c < last.length ↔ ∃ r ∈ last, centralAngle (my v) (mx v) (my r.val.2) (mx r.val.2) * 6371 < radius v) ∧
        ∀ r, last[a c]? = some r → centralAngle (my v) (mx v) (my r.val.2) (mx r.val.2) * 6371 < radius v ∧
          ∀ q ∈ last, centralAngle (my v) (mx v) (my r.val.2) (mx r.val.2) ≤ centralAngle (my v) (mx v) (my q.val.2) (mx q.val.2) := by
  obtain ⟨ends, a, h1, h2, h3, h4⟩ :=
    C04_linking_rule (E := realEnv prunes my mx radius ell gau nn) hnn hsnap hf hf1 ht h h' hne hC hes hrows
  have hch : ∀ i : Fin ends.length, ∃ r ∈ s.table.rows, r.id = i ∧ r.idx = 0 ∧
      ballTreePoint (my r.val.2) (mx r.val.2) = ends[i] ∧ ∀ q ∈ s.table.rows, q.id = i → q.val.1 ≤ r.val.1 := fun i =>
    h2 i _ (List.getElem?_eq_getElem i.2)
  choose last hl1 hl2 hl3 hl4 hl5 using hch
  have hlen : (List.ofFn last).length = ends.length := List.length_ofFn
  have hget : ∀ (i : Nat) r, (List.ofFn last)[i]? = some r → ∃ hi : i < ends.length, last ⟨i, hi⟩ = r := by
    intro i r hr
    obtain ⟨hi, hr⟩ := List.getElem?_eq_some_iff.1 hr
    rw [List.getElem_ofFn] at hr
    exact ⟨hlen ▸ hi, hr⟩
  have hmem : ∀ (v : α) (P : ℝ → Prop), (∃ r ∈ List.ofFn last, P (centralAngle (my v) (mx v) (my r.val.2) (mx r.val.2))) ↔
      ∃ p ∈ ends, P (haversine (ballTreePoint (my v) (mx v)) p) := by
    intro v P
    constructor
    · rintro ⟨r, hr, hP⟩
      obtain ⟨i, rfl⟩ := (List.mem_ofFn' _ _).1 hr
      refine ⟨ends[i], List.getElem_mem _, ?_⟩
      rw [← hl4 i, C83_great_circle]
      exact hP
    · rintro ⟨p, hp, hP⟩
      obtain ⟨i, hi, rfl⟩ := List.mem_iff_getElem.1 hp
      refine ⟨last ⟨i, hi⟩, (List.mem_ofFn' _ _).2 ⟨_, rfl⟩, ?_⟩
      rw [← C83_great_circle, hl4 ⟨i, hi⟩]
      exact hP
  refine ⟨List.ofFn last, a, by rwa [hlen], ?_, h3, ?_⟩
  · intro i r hr
    obtain ⟨hi, rfl⟩ := hget i r hr
    exact ⟨hl1 _, hl2 _, hl3 _, hl5 ⟨i, hi⟩⟩
  · intro c v hv
    have hiff : a c < ends.length ↔ ∃ p ∈ ends, haversine (ballTreePoint (my v) (mx v)) p * 6371 < radius v := by
      constructor
      · intro hlt
        by_contra hno
        exact absurd (h4.fresh c v hv hno) (by omega)
      · intro hex
        obtain ⟨p, hp, -⟩ := h4.linked c v hv hex
        exact (List.getElem?_eq_some_iff.1 hp).1
    refine ⟨by rw [hlen, hiff]; exact (hmem v fun d => d * 6371 < radius v).symm, ?_⟩
    intro r hr
    obtain ⟨hi, rfl⟩ := hget _ r hr
    obtain ⟨p, hp, hp1, hp2⟩ := h4.linked c v hv (hiff.1 hi)
    obtain ⟨_, rfl⟩ := List.getElem?_eq_some_iff.1 hp
    have e : ends[a c] = ballTreePoint (my (last ⟨a c, hi⟩).val.2) (mx (last ⟨a c, hi⟩).val.2) := (hl4 ⟨a c, hi⟩).symm
    simp only [realEnv] at hp1 hp2
    rw [e] at hp1 hp2
    rw [C83_great_circle] at hp2
    refine ⟨hp2, fun q hq => ?_⟩
    obtain ⟨j, rfl⟩ := (List.mem_ofFn' _ _).1 hq
    have := hp1 ends[j] (List.getElem_mem _)
    rwa [show ends[j] = _ from (hl4 j).symm, C83_great_circle, C83_great_circle] at this

/-- **C83** in the merging of levels: an eddy of the new level counts as one of the snapshot exactly if the great-circle distance to the
nearest one, in km on a sphere of radius 6371 km, is below the radius of the new one (provided no two new eddies replace the same
one). -/
theorem C83_merging {prunes : Bool} {my mx radius : α → ℝ} {ell gau : α → Option ℝ} {nn : List (ℝ × ℝ) → ℝ × ℝ → Nat} (hnn : IsNN haversine nn)
    {joint cur : Tbl α} {Js Ns : List (Eddy α)} (hJ : ∀ e ∈ Js, e ≠ []) (hN : ∀ e ∈ Ns, e ≠ [])
    (hJ0 : Js ≠ []) (hN0 : Ns ≠ []) (hjoint : joint.rows = snapRows Js) (hjwf : joint.WF)
    (hcur : cur.rows = snapRows Ns) (hcwf : cur.WF)
    (hinj : ∀ tgt, NearestChoice (fun v u => centralAngle (my v) (mx v) (my u) (mx u)) id (heads Js) (heads Ns) tgt →
      NoCollision tgt Ns.length (Near (fun v u => centralAngle (my v) (mx v) (my u) (mx u)) id radius (heads Js) (heads Ns) tgt)
        (Lower ell gau (heads Js) (heads Ns) tgt)) :
    ∃ t R tgt, mergeLevel (realEnv prunes my mx radius ell gau nn) joint cur = .ok t ∧ t.rows = snapRows R ∧ (∀ e ∈ R, e ≠ []) ∧
      NearestChoice (fun v u => centralAngle (my v) (mx v) (my u) (mx u)) id (heads Js) (heads Ns) tgt ∧
      MergeRule Js Ns R tgt (Near (fun v u => centralAngle (my v) (mx v) (my u) (mx u)) id radius (heads Js) (heads Ns) tgt)
        (Lower ell gau (heads Js) (heads Ns) tgt) := by
  have e1 : ∀ tgt, NearestChoice (realEnv prunes my mx radius ell gau nn).dist (realEnv prunes my mx radius ell gau nn).pos
      (heads Js) (heads Ns) tgt ↔
      NearestChoice (fun v u => centralAngle (my v) (mx v) (my u) (mx u)) id (heads Js) (heads Ns) tgt := by
    intro tgt
    unfold NearestChoice
    simp only [realEnv, C83_great_circle, id]
  have e2 : ∀ tgt, Near (realEnv prunes my mx radius ell gau nn).dist (realEnv prunes my mx radius ell gau nn).pos
      (realEnv prunes my mx radius ell gau nn).radius (heads Js) (heads Ns) tgt =
      Near (fun v u => centralAngle (my v) (mx v) (my u) (mx u)) id radius (heads Js) (heads Ns) tgt := by
    intro tgt
    unfold Near
    simp only [realEnv, C83_great_circle, id]
  obtain ⟨t, R, tgt, h1, -, h3, h4, h5, h6⟩ := C13_merge_rule (E := realEnv prunes my mx radius ell gau nn) hnn hJ hN hJ0 hN0 hjoint
    hjwf hcur hcwf (fun tgt ht => by rw [e2]; exact hinj tgt ((e1 tgt).1 ht))
  exact ⟨t, R, tgt, h1, h3, h4, (e1 tgt).1 h5, e2 tgt ▸ h6⟩

/-! ### C05, C15, C63 with this distance -/

/-- **C05** (partial) for the distance the code uses: an identifier labels one eddy per time if the eddies of each snapshot
are at least the sum of their radii apart on the sphere of radius 6371 km. -/
theorem C05_partial_great_circle {prunes : Bool} {my mx radius : α → ℝ} {ell gau : α → Option ℝ} {nn : List (ℝ × ℝ) → ℝ × ℝ → Nat}
    (hnn : IsNN haversine nn) {snap : Int → Except PyErr (Tbl α)}
    (hsnap : ∀ t C, snap t = .ok C → ∃ es : List (Eddy α), (∀ e ∈ es, e ≠ []) ∧ C.rows = snapRows es ∧
      ∀ (c c' : Nat) (v v' : α), (heads es)[c]? = some v → (heads es)[c']? = some v' → c ≠ c' →
        radius v + radius v' ≤ centralAngle (my v) (mx v) (my v') (mx v') * 6371)
    {t0 : Int} {tf : Option Int} {T : Nat} {ntimes : Int} {s : LoopState α}
    (h : timeTracking (realEnv prunes my mx radius ell gau nn) snap t0 tf T ntimes true = .ok s) : KeyUnique s.table.rows := by
  refine C05_partial (E := realEnv prunes my mx radius ell gau nn) hnn haversine_symm haversine_triangle ?_ h
  intro t C hC
  obtain ⟨es, h1, h2, h3⟩ := hsnap t C hC
  refine ⟨es, h1, h2, fun c c' v v' hv hv' hne => ?_⟩
  have := h3 c c' v v' hv hv' hne
  rw [← C83_great_circle] at this
  exact this

/-- **C15** (partial) for the distance the code uses: levels whose eddies are at least the sum of their radii apart merge
into a snapshot with one eddy per identifier. -/
theorem C15_partial_great_circle {prunes : Bool} {my mx radius : α → ℝ} {ell gau : α → Option ℝ} {nn : List (ℝ × ℝ) → ℝ × ℝ → Nat}
    (hnn : IsNN haversine nn) {detect : ℝ → Except PyErr (Tbl α)}
    (hdet : ∀ l, ∃ t, detect l = .ok t ∧ t.lev = usort t.ids ∧ ∃ es : List (Eddy α),
      (∀ e ∈ es, e ≠ []) ∧ t.rows = snapRows es ∧
      ∀ (c c' : Nat) (v v' : α), (heads es)[c]? = some v → (heads es)[c']? = some v' → c ≠ c' →
        radius v + radius v' ≤ centralAngle (my v) (mx v) (my v') (mx v') * 6371)
    (levels : List ℝ) :
    ∃ t es, detectSnapshot (realEnv prunes my mx radius ell gau nn) detect levels = .ok t ∧ (∀ e ∈ es, e ≠ []) ∧
      t.rows = snapRows es := by
  refine C15_partial (E := realEnv prunes my mx radius ell gau nn) hnn haversine_symm haversine_triangle (fun l => ?_) levels
  obtain ⟨t, h1, h2, es, h3, h4, h5⟩ := hdet l
  refine ⟨t, h1, h2, es, h3, h4, fun c c' v v' hv hv' hne => ?_⟩
  have := h5 c c' v v' hv hv' hne
  rw [← C83_great_circle] at this
  exact this

/-- an answer of the ball tree exists for every query -/
noncomputable def exNearest (P : List (ℝ × ℝ)) (q : ℝ × ℝ) : Nat := P.idxOf ((P.argmin (haversine q)).getD (0, 0))

theorem exNearest_isNN : IsNN haversine exNearest := by
  intro P q hP
  obtain ⟨a, ha⟩ : ∃ a, P.argmin (haversine q) = some a := by
    rcases h : P.argmin (haversine q) with _ | a
    · exact absurd (List.argmin_eq_none.mp h) hP
    · exact ⟨a, rfl⟩
  have hm := List.argmin_mem ha
  refine ⟨a, ?_, fun p hp => List.le_of_mem_argmin hp ha⟩
  unfold exNearest
  rw [ha]
  simp only [Option.getD_some]
  rw [List.getElem?_eq_getElem (List.idxOf_lt_length_iff.mpr hm)]
  simp

/-- runs up to times 1 and 2 on snapshots with two eddies, the first of which gives a table with rows (hypotheses of
`C83_tracking`) -/
example : ∃ s s' : LoopState ℝ, let snap : Int → Except PyErr (Tbl ℝ) := fun _ => .ok ⟨[0, 1], snapRows [[0], [1]]⟩
    let E := realEnv true (fun _ : ℝ => 0) id (fun _ => 10) some some exNearest
    (∀ t C, snap t = .ok C → SnapRows C.rows) ∧ timeTracking E snap 0 (some 1) 5 5 true = .ok s ∧ s.table.rows ≠ [] ∧
      timeTracking E snap 0 (some 2) 5 5 true = .ok s' := by
  have hs : ∀ (t : Int) (C : Tbl ℝ), (Except.ok ⟨[0, 1], snapRows [[0], [1]]⟩ : Except PyErr (Tbl ℝ)) = .ok C → SnapRows C.rows := by
    rintro t C ⟨rfl⟩
    exact ⟨snapRows_hasFirst, _, snapRows_contiguous (by simp)⟩
  obtain ⟨s', h'⟩ := C06_gap_free_runs_succeed (E := realEnv true (fun _ : ℝ => 0) id (fun _ => 10) some some exNearest) exNearest_isNN
    (snap := fun _ => .ok ⟨[0, 1], snapRows [[0], [1]]⟩) (fun t => ⟨_, rfl, by simp [snapRows, eddyRows]⟩) hs (f := 2) (by decide) 5 5
  exact ⟨_, s', hs, rfl, List.cons_ne_nil _ _, h'⟩

/-- hypotheses of `C83_merging` for one eddy in the snapshot and one in the new level -/
example : (⟨[0], snapRows [[(0 : ℝ)]]⟩ : Tbl ℝ).WF ∧ (∀ tgt : Nat → Nat, NoCollision tgt 1
    (Near (fun v u : ℝ => centralAngle 0 v 0 u) id (fun _ => 200) (heads [[0]]) (heads [[1]]) tgt)
    (Lower some some (heads [[(0 : ℝ)]]) (heads [[1]]) tgt)) := by
  refine ⟨fun r hr => by simp [snapRows, eddyRows] at hr ⊢; simp [hr], fun tgt i hi i' hi' _ _ _ _ _ => by omega⟩

/-- two eddies of 10 km radius, one degree apart on the equator (about 111 km) -/
example : ∀ (c c' : Nat) (v v' : ℝ), (heads [[(0 : ℝ)], [1]])[c]? = some v → (heads [[(0 : ℝ)], [1]])[c']? = some v' → c ≠ c' →
    (10 : ℝ) + 10 ≤ centralAngle 0 v 0 v' * 6371 := by
  have key : ∀ v v' : ℝ, v - v' = 1 ∨ v - v' = -1 → centralAngle 0 v 0 v' = Real.pi / 180 := by
    intro v v' h
    have hp := Real.pi_pos
    rw [← C83_great_circle]
    unfold haversine ballTreePoint
    simp only [zero_mul, sub_self, mul_zero, Real.sin_zero, Real.cos_zero]
    have hs : 0 ≤ Real.sin (Real.pi / 360) := Real.sin_nonneg_of_nonneg_of_le_pi (by positivity) (by linarith)
    have e : Real.sin (1 / 2 * (v * (Real.pi / 180) - v' * (Real.pi / 180))) ^ 2 = Real.sin (Real.pi / 360) ^ 2 := by
      rw [show 1 / 2 * (v * (Real.pi / 180) - v' * (Real.pi / 180)) = (v - v') * (Real.pi / 360) by ring]
      rcases h with h | h <;> rw [h]
      · rw [one_mul]
      · rw [neg_one_mul, Real.sin_neg, neg_sq]
    rw [e, show (0 : ℝ) ^ 2 + 1 * 1 * Real.sin (Real.pi / 360) ^ 2 = Real.sin (Real.pi / 360) ^ 2 by ring, Real.sqrt_sq hs,
      Real.arcsin_sin (by linarith) (by linarith)]
    ring
  intro c c' v v' hv hv' hne
  have h3 := Real.two_le_pi
  have : v - v' = 1 ∨ v - v' = -1 := by
    simp only [heads, List.filterMap_cons, List.head?_cons, List.filterMap_nil] at hv hv'
    rcases c with _ | _ | c <;> rcases c' with _ | _ | c' <;> simp_all
  rw [key v v' this]
  linarith

end Trackeddy
