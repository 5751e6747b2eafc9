import Verif.Model.Api
import Verif.Spec.Api
import Verif.Proofs.Detect
import Verif.Props.Coords
import Verif.Props.Filter
import Mathlib.Tactic.Linarith
import Mathlib.Tactic.Ring

/-!
Lemmas on the interface: the filters are the anomalies of Spec/Api.lean; a run on a dataset is a run on the maps it stores.
-/
namespace Trackeddy
open Spec

/-! ### filters -/

/-- the values of a map on its grid -/
def toFld (ny nx : ℕ) (z : ℕ → ℕ → Option ℝ) : Fld ℝ ny nx := fun r c => z r c

theorem kernel_half (k : ℕ) : kernelSize k / 2 = k / 2 ∧ kernelSize k = 2 * (k / 2) + 1 := by
  unfold kernelSize
  split <;> omega

theorem sum_box (ny nx k : ℕ) (z : ℕ → ℕ → Option ℝ) (g : Option ℝ → ℝ) (r : Fin ny) (c : Fin nx) :
    ∑ p ∈ box (kernelSize k), g (padded (toFld ny nx z) (r + p.1) (c + p.2)) =
      ∑ q ∈ square ny nx (k / 2) r c, g (z q.1 q.2) +
        ((2 * ((k / 2 : ℕ) : ℝ) + 1) ^ 2 - ((square ny nx (k / 2) r c).card : ℝ)) * g (some 0) := by
  obtain ⟨h1, h2⟩ := kernel_half k
  set B := box (kernelSize k)
  let P : Int × Int → Prop := fun p => 0 ≤ (r : Int) + p.1 ∧ (r : Int) + p.1 < ny ∧ 0 ≤ (c : Int) + p.2 ∧ (c : Int) + p.2 < nx
  have hin : ∑ p ∈ B.filter P, g (padded (toFld ny nx z) (r + p.1) (c + p.2)) = ∑ q ∈ square ny nx (k / 2) r c, g (z q.1 q.2) := by
    refine Finset.sum_nbij' (fun p => (((r : Int) + p.1).toNat, ((c : Int) + p.2).toNat))
      (fun q => ((q.1 : Int) - r, (q.2 : Int) - c)) ?_ ?_ ?_ ?_ ?_
    · intro p hp
      simp only [Finset.mem_filter, B, box, Finset.mem_product, Finset.mem_Icc, h1, P] at hp
      simp only [square, Finset.mem_filter, Finset.mem_product, Finset.mem_range]
      omega
    · intro q hq
      simp only [square, Finset.mem_filter, Finset.mem_product, Finset.mem_range] at hq
      simp only [Finset.mem_filter, B, box, Finset.mem_product, Finset.mem_Icc, h1, P]
      omega
    · intro p hp
      simp only [Finset.mem_filter, P] at hp
      ext <;> simp only <;> omega
    · intro q hq
      ext <;> simp only <;> omega
    · intro p hp
      simp only [Finset.mem_filter, P] at hp
      unfold padded
      rw [dif_pos hp.2]
      rfl
  have hcard : (B.filter P).card = (square ny nx (k / 2) r c).card := by
    have := Finset.card_nbij' (s := B.filter P) (t := square ny nx (k / 2) r c)
      (fun p => (((r : Int) + p.1).toNat, ((c : Int) + p.2).toNat))
      (fun q => ((q.1 : Int) - r, (q.2 : Int) - c)) ?_ ?_ ?_ ?_
    · exact this
    · intro p hp
      simp only [Finset.coe_filter, Set.mem_setOf_eq, B, box, Finset.mem_product, Finset.mem_Icc, h1, P] at hp
      simp only [square, Finset.coe_filter, Set.mem_setOf_eq, Finset.mem_product, Finset.mem_range]
      omega
    · intro q hq
      simp only [square, Finset.coe_filter, Set.mem_setOf_eq, Finset.mem_product, Finset.mem_range] at hq
      simp only [Finset.coe_filter, Set.mem_setOf_eq, B, box, Finset.mem_product, Finset.mem_Icc, h1, P]
      omega
    · intro p hp
      simp only [Finset.coe_filter, Set.mem_setOf_eq, P] at hp
      ext <;> simp only <;> omega
    · intro q hq
      ext <;> simp only <;> omega
  have hout : ∑ p ∈ B.filter (fun p => ¬ P p), g (padded (toFld ny nx z) (r + p.1) (c + p.2)) =
      ((B.filter fun p => ¬ P p).card : ℝ) * g (some 0) := by
    rw [Finset.sum_congr rfl (g := fun _ => g (some 0)), Finset.sum_const, nsmul_eq_mul]
    intro p hp
    simp only [Finset.mem_filter] at hp
    unfold padded
    rw [dif_neg hp.2]
  have hsum : (B.filter P).card + (B.filter fun p => ¬ P p).card = kernelSize k * kernelSize k := by
    rw [Finset.card_filter_add_card_filter_not, box_card _ (kernel_odd k)]
  rw [← Finset.sum_filter_add_sum_filter_not B P, hin, hout, ← hcard]
  congr 2
  have : ((B.filter P).card : ℝ) + ((B.filter fun p => ¬ P p).card : ℝ) = (2 * ((k / 2 : ℕ) : ℝ) + 1) ^ 2 := by
    have h : (((B.filter P).card + (B.filter fun p => ¬ P p).card : ℕ) : ℝ) = ((kernelSize k * kernelSize k : ℕ) : ℝ) := by
      rw [hsum]
    rw [h2] at h
    push_cast at h ⊢
    rw [h]
    ring
  linarith

theorem boxMean_eq (ny nx k : ℕ) (z : ℕ → ℕ → Option ℝ) (r : Fin ny) (c : Fin nx) :
    boxMean (kernelSize k) (toFld ny nx z) r c = squareMean ny nx (k / 2) z r c := by
  unfold boxMean squareMean
  rw [sum_box, sum_box]
  have h1 : ∑ q ∈ square ny nx (k / 2) r c, val (z q.1 q.2) = ∑ q ∈ square ny nx (k / 2) r c, (z q.1 q.2).getD 0 := by
    refine Finset.sum_congr rfl fun q _ => ?_
    cases z q.1 q.2 <;> rfl
  have h2 : ∑ q ∈ square ny nx (k / 2) r c, one (z q.1 q.2) = ((square ny nx (k / 2) r c).card : ℝ) -
      (((square ny nx (k / 2) r c).filter fun p => z p.1 p.2 = none).card : ℝ) := by
    have h3 : ∀ q ∈ square ny nx (k / 2) r c, one (z q.1 q.2) = 1 - if z q.1 q.2 = none then (1 : ℝ) else 0 := by
      intro q _
      cases z q.1 q.2 <;> simp [one]
    rw [Finset.sum_congr rfl h3, Finset.sum_sub_distrib, Finset.sum_const, nsmul_eq_mul, mul_one, Finset.sum_boole]
  rw [h1, h2]
  simp only [val, one, mul_zero, add_zero, mul_one]
  congr 1
  ring

theorem lineMean_eq (n : ℕ) (l : ℕ → Option ℝ) :
    lineMean (fun i : Fin n => l i) = average ((List.range n).filterMap l) := by
  unfold lineMean average
  have h : ∀ m : List ℕ, (m.filterMap l).sum = (m.map fun i => val (l i)).sum ∧
      ((m.filterMap l).length : ℝ) = (m.map fun i => one (l i)).sum := by
    intro m
    induction m with
    | nil => simp
    | cons a m ih =>
      cases ha : l a with
      | none => simp [ha, val, one, ih.1, ih.2]
      | some x =>
        simp only [List.filterMap_cons, ha, List.sum_cons, List.map_cons, List.length_cons, Nat.cast_add, Nat.cast_one, ih.1, ih.2,
          val, one]
        exact ⟨trivial, by ring⟩
  rw [(h _).1, (h _).2]
  have hr : ∀ f : ℕ → ℝ, ((List.range n).map f).sum = ∑ i : Fin n, f i := by
    intro f
    rw [Fin.sum_univ_eq_sum_range f n]
    rfl
  rw [hr, hr]

/-- the spatial filters give the anomalies -/
theorem spaceFilter_anomaly (s : SpaceFilter) (ny nx : ℕ) (z : ℕ → ℕ → Option ℝ) :
    (ValidSetup s → spaceFilter s (toFld ny nx z) = .ok (toFld ny nx (anomaly s ny nx z))) ∧
    (¬ ValidSetup s → ∃ e, spaceFilter s (toFld ny nx z) = .error e) := by
  unfold spaceFilter
  constructor
  · intro hs
    match s with
    | .convolution .uniform k =>
      dsimp only
      congr 1
      funext r c
      unfold uniformFilter
      rw [boxMean_eq]
      rfl
    | .convolution .gaussian k => exact hs.elim
    | .convolution .other k => rfl
    | .meridional =>
      dsimp only
      congr 1
      funext r c
      have := lineMean_eq nx (z r)
      unfold meridional toFld
      rw [this]
      rfl
    | .zonal =>
      dsimp only
      congr 1
      funext r c
      have := lineMean_eq ny (fun r' => z r' c)
      unfold zonal toFld
      rw [this]
      rfl
    | .other => exact hs.elim
  · intro hs
    match s with
    | .convolution .uniform k => exact absurd trivial hs
    | .convolution .gaussian k => exact ⟨_, rfl⟩
    | .convolution .other k => exact absurd trivial hs
    | .meridional => exact absurd trivial hs
    | .zonal => exact absurd trivial hs
    | .other => exact ⟨_, rfl⟩

/-! ### runs -/

/-- a run whose snapshots are those of fields -/
theorem timeTracking_eq {Pt : Type} {o : Tracker} {E : Env Cols ℝ Pt} {L : Libs} {t0 : Int} {tf : Option Int} {T : ℕ}
    {levels : Levels} {ls : List ℝ} {ntimes : Int} {online : Bool} {regs : Regs Cols} {c : Criteria ℝ} {field : Int → Fields}
    (ht : o.times t0 tf = .ok (trackTimes t0 tf T))
    (h : ∀ t ∈ trackTimes t0 tf T, ∀ r, o.detect E L levels t r = snapshotOf E c L (field t) ls r) :
    o.timeTracking E L t0 tf levels ntimes online regs = trackFields E c L field ls t0 tf T ntimes online regs := by
  unfold Tracker.timeTracking trackFields
  rw [ht]
  simp only
  generalize (regs, (Except.ok ⟨⟨[], []⟩, [], []⟩ : Except PyErr (LoopState Cols))) = st
  generalize trackTimes t0 tf T = ts at h
  induction ts generalizing st with
  | nil => rfl
  | cons t ts ih =>
    simp only [List.foldl_cons]
    rw [ih _ (fun t' ht' => h t' (List.mem_cons_of_mem _ ht'))]
    congr 1
    obtain ⟨r, x⟩ := st
    cases x with
    | error e => rfl
    | ok s =>
      simp only
      rw [h t List.mem_cons_self r]

/-- a run on filtered data -/
theorem detect_field {Pt : Type} {o : Tracker} (E : Env Cols ℝ Pt) (L : Libs) (l : List ℝ) {t : Int} {Z : Cntr.NdArr (Option ℝ)}
    (h : (o.snapshot t).bind o.filtered = .ok (.field Z)) (r : Regs Cols) :
    o.detect E L (.array l) t r = snapshotOf E o.criteria L ⟨o.X, o.Y, Z⟩ l r := by
  unfold Tracker.detect Levels.select
  rw [h]
  simp only
  have hf : (l.filter fun x => x ≠ 0).filter (fun x => x ≠ 0) = l.filter fun x => x ≠ 0 := by simp
  unfold snapshotOf
  cases hl : l.filter (fun x => x ≠ 0) with
  | nil => rfl
  | cons a b =>
    simp only
    rw [← hl, hf]

/-! ### datasets -/

/-- The dataset `D` stores the series `O` under `name`: the variable has the recognised dimensions `tn`, `yn`, `xn` in any position
except that the latitudes precede the longitudes, possibly further dimensions of size one, one-dimensional coordinates; and no pair
of data variables is named like coordinates. -/
structure Holds (D : Dataset) (name : String) (O : Series) (v : Variable) (tn yn xn : String) : Prop where
  var : D.var name = some v
  nodup : (v.dims.map Prod.fst).Nodup
  time : (tn, O.T) ∈ v.dims
  rest : v.dims.filter (fun p => p.1 ≠ tn ∧ p.2 ≠ 1) = [(yn, O.ny), (xn, O.nx)]
  roles : IsDim .time tn ∧ IsDim .lat yn ∧ IsDim .lon xn
  unique : ∀ p ∈ v.dims, (IsDim .time p.1 → p.1 = tn) ∧ (IsDim .lat p.1 → p.1 = yn) ∧ (IsDim .lon p.1 → p.1 = xn)
  keys : (∀ k ∈ D.keys, ¬ IsVar .lon k) ∨ ∀ k ∈ D.keys, ¬ IsVar .lat k
  lon : D.coord xn = some (.d1 O.lon)
  lat : D.coord yn = some (.d1 O.lat)
  values : ∀ ix : String → ℕ, (∀ p ∈ v.dims, ix p.1 < p.2) → v.get ix = O.z (ix tn) (ix yn) (ix xn)

/-- the field of a map -/
noncomputable def Spec.Series.fields (O : Series) (w : ℕ → ℕ → Option ℝ) : Fields :=
  ⟨⟨O.ny, O.nx, fun _ c => O.lon.getD c 0⟩, ⟨O.ny, O.nx, fun r _ => O.lat.getD r 0⟩,
    fldArr (toFld O.ny O.nx w)⟩

/-- the arrays of coordinates are the grids of Model/Coords.lean -/
theorem coordArrays_grids {a b : CoordArr ℝ} {X Y : List (List ℝ)} (h : coordGrids a b = .ok (X, Y))
    (hrect : ∀ m, a = .d2 m ∨ b = .d2 m → ∀ row ∈ m, row.length = ((m.head?.map List.length).getD 0)) :
    ∃ X' Y', coordArrays a b = .ok (X', Y') ∧
      (∀ r c, r < X'.rows → c < X'.cols → at2 X r c = some (X'.get r c)) ∧
      (∀ r c, r < Y'.rows → c < Y'.cols → at2 Y r c = some (Y'.get r c)) ∧ X'.rows = X.length ∧ Y'.rows = Y.length := by
  have hrow : ∀ m : List (List ℝ), (∀ row ∈ m, row.length = ((m.head?.map List.length).getD 0)) → ∀ r c, r < (rowsArr m).rows →
      c < (rowsArr m).cols → at2 m r c = some ((rowsArr m).get r c) := by
    intro m hm r c hr hc
    unfold rowsArr at *
    simp only at *
    unfold at2
    rw [List.getElem?_eq_getElem hr]
    have := hm m[r] (List.getElem_mem hr)
    simp only [Option.bind_some]
    rw [List.getElem?_eq_getElem (by omega)]
    rfl
  match a, b with
  | .d1 x, .d1 y =>
    injection h with h
    unfold meshgrid at h
    simp only [Prod.mk.injEq] at h
    obtain ⟨rfl, rfl⟩ := h
    refine ⟨_, _, rfl, ?_, ?_, by simp, by simp⟩
    · intro r c hr hc
      simp only at hr hc
      simp [at2, hr, hc]
    · intro r c hr hc
      simp only at hr hc
      simp [at2, hr, hc]
  | .d2 x, .d2 y =>
    injection h with h
    simp only [Prod.mk.injEq] at h
    obtain ⟨rfl, rfl⟩ := h
    exact ⟨_, _, rfl, hrow x (hrect x (Or.inl rfl)), hrow y (hrect y (Or.inr rfl)), rfl, rfl⟩

variable {D : Dataset} {name : String} {O : Series} {v : Variable} {tn yn xn : String}

theorem Holds.dims_mem (h : Holds D name O v tn yn xn) : (yn, O.ny) ∈ v.dims ∧ (xn, O.nx) ∈ v.dims ∧ yn ≠ tn ∧ xn ≠ tn ∧ yn ≠ xn ∧
    O.ny ≠ 1 ∧ O.nx ≠ 1 := by
  have h1 : (yn, O.ny) ∈ v.dims.filter (fun p => p.1 ≠ tn ∧ p.2 ≠ 1) := by rw [h.rest]; simp
  have h2 : (xn, O.nx) ∈ v.dims.filter (fun p => p.1 ≠ tn ∧ p.2 ≠ 1) := by rw [h.rest]; simp
  have h3 : ((v.dims.filter (fun p => p.1 ≠ tn ∧ p.2 ≠ 1)).map Prod.fst).Nodup :=
    h.nodup.sublist (List.filter_sublist.map _)
  rw [h.rest] at h3
  simp only [List.map_cons, List.map_nil, List.nodup_cons, List.mem_singleton] at h3
  simp only [List.mem_filter, decide_eq_true_eq] at h1 h2
  exact ⟨h1.1, h2.1, h1.2.1, h2.2.1, h3.1, h1.2.2, h2.2.2⟩

theorem Holds.coords (h : Holds D name O v tn yn xn) :
    (identifyCoords (v.dims.map Prod.fst) D.keys).time = tn ∧ (identifyCoords (v.dims.map Prod.fst) D.keys).x = xn ∧
    (identifyCoords (v.dims.map Prod.fst) D.keys).y = yn ∧
    chooseCoords (identifyCoords (v.dims.map Prod.fst) D.keys) = .ok (xn, yn) := by
  obtain ⟨h1, h2, -⟩ := h.dims_mem
  have m1 : tn ∈ v.dims.map Prod.fst := List.mem_map.2 ⟨_, h.time, rfl⟩
  have m2 : yn ∈ v.dims.map Prod.fst := List.mem_map.2 ⟨_, h1, rfl⟩
  have m3 : xn ∈ v.dims.map Prod.fst := List.mem_map.2 ⟨_, h2, rfl⟩
  have u : ∀ d ∈ v.dims.map Prod.fst, (IsDim .time d → d = tn) ∧ (IsDim .lat d → d = yn) ∧ (IsDim .lon d → d = xn) := by
    intro d hd
    obtain ⟨p, hp, rfl⟩ := List.mem_map.1 hd
    exact h.unique p hp
  exact ⟨C44_unique _ _ .time tn m1 h.roles.1 fun d hd => (u d hd).1, C44_unique _ _ .lon xn m3 h.roles.2.2 fun d hd => (u d hd).2.2,
    C44_unique _ _ .lat yn m2 h.roles.2.1 fun d hd => (u d hd).2.1,
    C44_grid_names _ _ xn yn m3 m2 h.roles.2.2 h.roles.2.1 (fun d hd => (u d hd).2.2) (fun d hd => (u d hd).2.1) h.keys⟩

/-- the object that the constructor returns -/
noncomputable def freshTracker (D : Dataset) (v : Variable) (O : Series) (nan : Bool) : Tracker :=
  ⟨v, nan, .space, identifyCoords (v.dims.map Prod.fst) D.keys, (O.fields fun _ _ => none).X, (O.fields fun _ _ => none).Y,
    defaultCriteria, defaultSetup⟩

theorem Holds.new (h : Holds D name O v tn yn xn) (nan : Bool) : newTracker D name nan = .ok (freshTracker D v O nan) := by
  unfold newTracker lookup
  simp only [h.var, bind, Except.bind, pure, Except.pure, h.coords.2.2.2, h.lon, h.lat, coordArrays]
  rfl

/-- the index of a time: negative ones count from the end -/
def timeIndex (T : ℕ) (t : Int) : ℕ := (if t < 0 then t + T else t).toNat

theorem find_dim {l : List (String × ℕ)} (h : (l.map Prod.fst).Nodup) {n : String} {k : ℕ} (hm : (n, k) ∈ l) :
    l.find? (fun p => p.1 = n) = some (n, k) := by
  induction l with
  | nil => cases hm
  | cons p l ih =>
    simp only [List.map_cons, List.nodup_cons] at h
    rcases List.mem_cons.1 hm with rfl | hm
    · simp
    · have : p.1 ≠ n := by
        intro e
        exact h.1 (e ▸ List.mem_map.2 ⟨_, hm, rfl⟩)
      rw [List.find?_cons_of_neg (by simpa using this)]
      exact ih h.2 hm

/-- the snapshot that an object with the given dimensions selects -/
theorem Holds.snapshot (h : Holds D name O v tn yn xn) {o : Tracker} (ho : o.raw = v) (hc : o.coords = identifyCoords (v.dims.map Prod.fst) D.keys)
    (t : Int) :
    (-(O.T : Int) ≤ t ∧ t < O.T → ∃ u, o.snapshot t = .ok u ∧ u.dims = [(yn, O.ny), (xn, O.nx)] ∧
      u.fld yn xn O.ny O.nx = toFld O.ny O.nx (O.z (timeIndex O.T t))) ∧
    (¬ (-(O.T : Int) ≤ t ∧ t < O.T) → o.snapshot t = .error .indexError) := by
  have htn : tn ≠ "" := fun e => dim_ne_empty .time (e ▸ h.roles.1)
  obtain ⟨d1, d2, n1, n2, n3, n4, n5⟩ := h.dims_mem
  have uniq : ∀ {n : String} {a b : ℕ}, (n, a) ∈ v.dims → (n, b) ∈ v.dims → a = b := by
    intro n a b ha hb
    have := (find_dim h.nodup ha).symm.trans (find_dim h.nodup hb)
    simpa using this
  unfold Tracker.snapshot
  rw [hc, h.coords.1, if_pos htn, ho]
  unfold Variable.isel
  rw [find_dim h.nodup h.time]
  simp only
  constructor
  · intro ht
    rw [if_pos ht]
    refine ⟨_, rfl, ?_, ?_⟩
    · unfold Variable.squeeze
      simp only
      rw [List.filter_filter, ← h.rest]
      congr 1
      funext p
      simp [Bool.and_comm]
    · funext r c
      unfold Variable.fld Variable.squeeze toFld
      simp only
      rw [h.values]
      · have a2 : (yn, 1) ∉ v.dims.filter fun p => p.1 ≠ tn := fun hm =>
          n4 (uniq d1 (List.mem_filter.1 hm).1)
        have a3 : (xn, 1) ∉ v.dims.filter fun p => p.1 ≠ tn := fun hm =>
          n5 (uniq d2 (List.mem_filter.1 hm).1)
        rw [if_pos rfl, if_neg n1, if_neg n2, if_neg a2, if_neg a3, if_pos rfl, if_neg (Ne.symm n3), if_pos rfl]
        rfl
      · intro p hp
        by_cases e1 : p.1 = tn
        · have : p.2 = O.T := uniq (show (tn, p.2) ∈ v.dims by rw [← e1]; exact hp) h.time
          rw [if_pos e1, this]
          split <;> omega
        · rw [if_neg e1]
          by_cases e2 : (p.1, 1) ∈ v.dims.filter fun p => p.1 ≠ tn
          · rw [if_pos e2]
            have : p.2 = 1 := uniq (show (p.1, p.2) ∈ v.dims from hp) (List.mem_filter.1 e2).1
            omega
          · rw [if_neg e2]
            have e3 : p.2 ≠ 1 := by
              intro e
              apply e2
              rw [List.mem_filter]
              exact ⟨by rw [← e]; exact hp, by simpa using e1⟩
            have e4 : p ∈ v.dims.filter (fun p => p.1 ≠ tn ∧ p.2 ≠ 1) := by
              rw [List.mem_filter]
              exact ⟨hp, by simp [e1, e3]⟩
            rw [h.rest] at e4
            simp only [List.mem_cons, List.not_mem_nil, or_false] at e4
            rcases e4 with rfl | rfl
            · simp
            · simp [Ne.symm n3]
  · intro ht
    rw [if_neg ht]
    rfl

theorem Holds.times (h : Holds D name O v tn yn xn) {o : Tracker} (ho : o.raw = v)
    (hc : o.coords = identifyCoords (v.dims.map Prod.fst) D.keys) (t0 : Int) (tf : Option Int) :
    o.times t0 tf = .ok (trackTimes t0 tf O.T) := by
  have htn : tn ≠ "" := fun e => dim_ne_empty .time (e ▸ h.roles.1)
  unfold Tracker.times
  rw [hc, h.coords.1, ho]
  have : v.dims.find? (fun p => p.1 = tn ∧ tn ≠ "") = some (tn, O.T) := by
    rw [← find_dim h.nodup h.time]
    congr 1
    funext p
    simp [htn]
  rw [this]
  by_cases htf : tf = none ∨ tf = some 0
  · rw [if_pos htf]
  · rw [if_neg htf]
    cases tf with
    | none => exact absurd (Or.inl rfl) htf
    | some f =>
      have : f ≠ 0 := fun e => htf (Or.inr (by rw [e]))
      simp [trackTimes, this]

/-- the filter on the selected snapshot -/
theorem Holds.filtered_eq (h : Holds D name O v tn yn xn) {o : Tracker} (ho : o.raw = v)
    (hc : o.coords = identifyCoords (v.dims.map Prod.fst) D.keys) (t : Int) :
    (o.snapshot t).bind o.filtered = if -(O.T : Int) ≤ t ∧ t < O.T then
      (filterData o.nanTreatment o.setup o.filter (toFld O.ny O.nx (O.z (timeIndex O.T t)))).map trackedOf
      else .error .indexError := by
  by_cases ht : -(O.T : Int) ≤ t ∧ t < O.T
  · rw [if_pos ht]
    obtain ⟨u, h1, h2, h3⟩ := (h.snapshot ho hc t).1 ht
    obtain ⟨-, c1, c2, -⟩ := h.coords
    have hax : alongAxis o.coords yn xn o.setup = .ok o.setup := by
      unfold alongAxis
      rw [hc, c1, c2]
      cases o.setup <;> simp
    rw [h1]
    simp only [Except.bind]
    unfold Tracker.filtered
    rw [h2]
    simp only [h3, hax, Except.bind]
    cases o.filter <;> rfl
  · rw [if_neg ht, (h.snapshot ho hc t).2 ht]
    rfl

theorem filterData_space {s : SpaceFilter} (hs : ValidSetup s) (nan : Bool) (ny nx : ℕ) (z : ℕ → ℕ → Option ℝ) :
    (filterData nan s .space (toFld ny nx z)).map trackedOf = .ok (.field (fldArr (toFld ny nx (anomaly s ny nx z)))) := by
  simp only [filterData, filterFunc, (spaceFilter_anomaly _ _ _ _).1 hs, Except.map, trackedOf]

theorem filterData_time {f : FilterName} (hf : f = .time ∨ f = .both) (nan : Bool) (s : SpaceFilter) {ny nx : ℕ} (u : Fld ℝ ny nx) :
    (filterData nan s f u).map trackedOf = .ok .absent ∨ ∃ e, (filterData nan s f u).map trackedOf = .error e := by
  rcases hf with rfl | rfl
  · exact Or.inl rfl
  · simp only [filterData, bind, Except.bind, pure, Except.pure]
    generalize spaceFilter (K := ℝ) s _ = x
    cases x with
    | error e => exact Or.inr ⟨e, rfl⟩
    | ok x => exact Or.inl rfl

/-- the object was made from the dataset; only filter, criteria and nan treatment were changed since -/
structure MadeFrom (o : Tracker) (D : Dataset) (v : Variable) (O : Series) : Prop where
  raw : o.raw = v
  coords : o.coords = identifyCoords (v.dims.map Prod.fst) D.keys
  X : o.X = (O.fields fun _ _ => none).X
  Y : o.Y = (O.fields fun _ _ => none).Y

theorem Holds.made (h : Holds D name O v tn yn xn) {nan : Bool} {o : Tracker} (ho : newTracker D name nan = .ok o)
    (f : FilterName) (c : Criteria ℝ) (s : SpaceFilter) (n : Bool) :
    MadeFrom { o with filter := f, criteria := c, setup := s, nanTreatment := n } D v O := by
  rw [h.new nan] at ho
  injection ho with ho
  subst ho
  exact ⟨rfl, rfl, rfl, rfl⟩

/-- a run with the spatial filter is a run on the anomalies -/
theorem Holds.run (h : Holds D name O v tn yn xn) {o : Tracker} (ho : MadeFrom o D v O) (hf : o.filter = .space)
    (hs : ValidSetup o.setup) {Pt : Type} (E : Env Cols ℝ Pt) (L : Libs) {t0 : Int} {tf : Option Int}
    (ht : ∀ t ∈ trackTimes t0 tf O.T, -(O.T : Int) ≤ t ∧ t < O.T) (l : List ℝ) (ntimes : Int) (online : Bool) (regs : Regs Cols) :
    o.timeTracking E L t0 tf (.array l) ntimes online regs =
      trackFields E o.criteria L (fun t => O.fields (anomaly o.setup O.ny O.nx (O.z (timeIndex O.T t)))) l t0 tf O.T ntimes online
        regs := by
  refine timeTracking_eq (h.times ho.raw ho.coords t0 tf) fun t hm r => ?_
  have := h.filtered_eq ho.raw ho.coords t
  rw [if_pos (ht t hm), hf, filterData_space hs] at this
  rw [detect_field E L l this, ho.X, ho.Y]
  rfl

theorem fields_ok (O : Series) (w : ℕ → ℕ → Option ℝ) : (O.fields w).Ok := ⟨rfl, rfl, fun M hM => by cases hM⟩

theorem fields_grid (O : Series) (w : ℕ → ℕ → Option ℝ) : (O.fields w).grid = O.grid w := by
  unfold Fields.grid Cntr.arrGrid Spec.Series.grid Spec.Series.fields fldArr toFld
  simp only
  congr 1

end Trackeddy
