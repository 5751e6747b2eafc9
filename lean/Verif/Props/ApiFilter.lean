import Verif.Props.ApiMap

/-!
C97 (a constant added to the data) and the properties C47 and C90 for calls on datasets.
-/
namespace Trackeddy
open Spec
open Cntr (Vertex SameShape arrGrid Full)

/-- the series with a number added to the map at time `t`, which may depend on time, latitude and longitude -/
def Spec.Series.add (O : Series) (b : ℕ → ℕ → ℕ → ℝ) : Series :=
  ⟨O.T, O.lon, O.lat, fun t r c => (O.z t r c).map (· + b t r c)⟩

/-- the maps multiplied by a number -/
def Spec.Series.times (a : ℝ) (O : Series) : Series :=
  ⟨O.T, O.lon, O.lat, fun t r c => (O.z t r c).map (a * ·)⟩

variable {D D' : Dataset} {name name' : String} {O : Series} {v v' : Variable} {tn yn xn tn' yn' xn' : String}

/-! ### C97 -/

/-- fields only depend on the values on the grid -/
theorem fields_congr {O : Series} {w w' : ℕ → ℕ → Option ℝ} (h : ∀ r < O.ny, ∀ c < O.nx, w r c = w' r c) :
    O.fields w = O.fields w' := by
  unfold Spec.Series.fields
  congr 1
  unfold fldArr toFld
  congr 1
  funext r c
  split_ifs with hrc
  · exact h r hrc.1 c hrc.2
  · rfl

theorem average_add {l : List ℝ} (b : ℝ) (h : l ≠ []) : average (l.map (· + b)) = average l + b := by
  unfold average
  have hl : (l.length : ℝ) ≠ 0 := by
    have := List.length_pos_of_ne_nil h
    positivity
  have : (l.map (· + b)).sum = l.sum + l.length * b := by
    induction l with
    | nil => simp
    | cons x l ih =>
      by_cases h0 : l = []
      · subst h0; simp
      · have hl0 : (l.length : ℝ) ≠ 0 := by
          have := List.length_pos_of_ne_nil h0
          positivity
        simp only [List.map_cons, List.sum_cons, ih h0 hl0, List.length_cons]
        push_cast
        ring
  rw [this, List.length_map, add_div, mul_div_cancel_left₀ _ hl]

theorem average_scale (l : List ℝ) (a : ℝ) : average (l.map (a * ·)) = a * average l := by
  unfold average
  rw [List.sum_map_mul_left]
  simp [mul_div_assoc]

/-- the anomaly of the filter `meridional` does not depend on what is added to each latitude, that of `zonal` not on what is added
to each longitude -/
theorem anomaly_lines (ny nx : ℕ) (z : ℕ → ℕ → Option ℝ) (b : ℕ → ℝ) :
    (∀ r, ∀ c < nx, anomaly .meridional ny nx (fun r c => (z r c).map (· + b r)) r c = anomaly .meridional ny nx z r c) ∧
    ∀ r < ny, ∀ c, anomaly .zonal ny nx (fun r c => (z r c).map (· + b c)) r c = anomaly .zonal ny nx z r c := by
  have key : ∀ (n : ℕ) (l : ℕ → Option ℝ) (β : ℝ), ∀ i < n, (l i).map (· + β) ≠ none →
      average ((List.range n).filterMap fun j => (l j).map (· + β)) = average ((List.range n).filterMap l) + β := by
    intro n l β i hi hne
    have e : (List.range n).filterMap (fun j => (l j).map (· + β)) = ((List.range n).filterMap l).map (· + β) := by
      rw [List.map_filterMap]
    rw [e]
    apply average_add
    intro h0
    rw [List.filterMap_eq_nil_iff] at h0
    exact hne (by rw [h0 i (List.mem_range.2 hi)]; rfl)
  constructor
  · intro r c hc
    unfold anomaly
    simp only
    cases hz : z r c with
    | none => rfl
    | some x =>
      rw [key nx (z r) (b r) c hc (by rw [hz]; simp)]
      simp only [Option.map_some, Option.some.injEq]
      ring
  · intro r hr c
    unfold anomaly
    simp only
    cases hz : z r c with
    | none => rfl
    | some x =>
      rw [key ny (fun r => z r c) (b c) r hr (by rw [hz]; simp)]
      simp only [Option.map_some, Option.some.injEq]
      ring

theorem square_full {ny nx h r c : ℕ} (hr : h ≤ r) (hr' : r + h < ny) (hc : h ≤ c) (hc' : c + h < nx) :
    ((square ny nx h r c).card : ℝ) = (2 * (h : ℝ) + 1) ^ 2 := by
  have : square ny nx h r c = Finset.Icc (r - h) (r + h) ×ˢ Finset.Icc (c - h) (c + h) := by
    ext p
    simp only [square, Finset.mem_filter, Finset.mem_product, Finset.mem_range, Finset.mem_Icc]
    omega
  rw [this, Finset.card_product, Nat.card_Icc, Nat.card_Icc]
  have e1 : r + h + 1 - (r - h) = 2 * h + 1 := by omega
  have e2 : c + h + 1 - (c - h) = 2 * h + 1 := by omega
  rw [e1, e2]
  push_cast
  ring

/-- away from the border the anomaly of the moving average does not depend on a constant added to the map -/
theorem anomaly_square (ny nx k : ℕ) (z : ℕ → ℕ → Option ℝ) (b : ℝ) {r c : ℕ} (hr : k / 2 ≤ r) (hr' : r + k / 2 < ny) (hc : k / 2 ≤ c)
    (hc' : c + k / 2 < nx) :
    anomaly (.convolution .uniform k) ny nx (fun r c => (z r c).map (· + b)) r c =
      anomaly (.convolution .uniform k) ny nx z r c := by
  unfold anomaly
  simp only
  cases hz : z r c with
  | none => rfl
  | some x =>
    have hmem : (r, c) ∈ square ny nx (k / 2) r c := by
      simp only [square, Finset.mem_filter, Finset.mem_product, Finset.mem_range]
      omega
    have hcard := square_full hr hr' hc hc'
    set S := square ny nx (k / 2) r c with hS
    have hnone : (S.filter fun p => (z p.1 p.2).map (· + b) = none) = S.filter fun p => z p.1 p.2 = none := by
      apply Finset.filter_congr
      intro p _
      simp
    have hsum : ∑ p ∈ S, ((z p.1 p.2).map (· + b)).getD 0 =
        ∑ p ∈ S, (z p.1 p.2).getD 0 + b * ((S.card : ℝ) - ((S.filter fun p => z p.1 p.2 = none).card : ℝ)) := by
      have hsplit : (S.card : ℝ) - ((S.filter fun p => z p.1 p.2 = none).card : ℝ) =
          ∑ p ∈ S, if z p.1 p.2 = none then (0 : ℝ) else 1 := by
        have h1 := Finset.card_filter_add_card_filter_not (s := S) (p := fun p => z p.1 p.2 = none)
        rw [← h1]
        push_cast
        rw [add_sub_cancel_left, Finset.card_filter]
        push_cast
        apply Finset.sum_congr rfl
        intro p _
        by_cases hp : z p.1 p.2 = none <;> simp [hp]
      rw [hsplit, Finset.mul_sum, ← Finset.sum_add_distrib]
      apply Finset.sum_congr rfl
      intro p _
      cases z p.1 p.2 <;> simp
    have hpos : (2 * ((k / 2 : ℕ) : ℝ) + 1) ^ 2 - ((S.filter fun p => z p.1 p.2 = none).card : ℝ) ≠ 0 := by
      rw [← hcard]
      have hlt : (S.filter fun p => z p.1 p.2 = none).card < S.card := by
        apply Finset.card_lt_card
        rw [Finset.filter_ssubset]
        exact ⟨(r, c), hmem, by simp [hz]⟩
      have : ((S.filter fun p => z p.1 p.2 = none).card : ℝ) < S.card := Nat.cast_lt.2 hlt
      linarith
    have hm : squareMean ny nx (k / 2) (fun r c => (z r c).map (· + b)) r c = squareMean ny nx (k / 2) z r c + b := by
      unfold squareMean
      rw [← hS, hnone, hsum, hcard, add_div, mul_div_assoc, div_self hpos, mul_one]
    rw [hm]
    simp only [Option.map_some, Option.some.injEq]
    ring

/-- **C97** (partial) With the filter `meridional`, a call gives the same result if a number is added to each latitude of each map,
in particular a constant; with `zonal` the same for longitudes. With the moving average the anomaly is the same at all points
farther from the border than half of the kernel. Missing: the points near the border. -/
theorem C97_partial (O : Series) (b : ℕ → ℕ → ℝ) {s : SpaceFilter} {f : ℕ → ℕ → ℕ → ℝ}
    (hs : s = .meridional ∧ (f = fun t r _ => b t r) ∨ s = .zonal ∧ f = fun t _ c => b t c)
    (h : Holds D name O v tn yn xn) (h' : Holds D' name' (O.add f) v' tn' yn' xn') (nan : Bool) :
    ∃ o o', newTracker D name nan = .ok o ∧ newTracker D' name' nan = .ok o' ∧
      ∀ (c : Criteria ℝ) {Pt : Type} (E : Env Cols ℝ Pt) (L : Libs) (t0 : Int) (tf : Option Int) (levels : List ℝ) (ntimes : Int)
        (online : Bool) (regs : Regs Cols), InSeries O t0 tf →
        { o with setup := s, criteria := c }.timeTracking E L t0 tf (.array levels) ntimes online regs =
          { o' with setup := s, criteria := c }.timeTracking E L t0 tf (.array levels) ntimes online regs := by
  refine ⟨_, _, h.new nan, h'.new nan, fun c Pt E L t0 tf levels ntimes online regs hin => ?_⟩
  have hv : ValidSetup s := by rcases hs with ⟨rfl, -⟩ | ⟨rfl, -⟩ <;> trivial
  have hin' : InSeries (O.add f) t0 tf := hin
  have e1 := h.run_in (o := { freshTracker D v O nan with setup := s, criteria := c }) ⟨rfl, rfl, rfl, rfl⟩ rfl hv E L hin levels ntimes
    online regs
  have e2 := h'.run_in (o := { freshTracker D' v' (O.add f) nan with setup := s, criteria := c }) ⟨rfl, rfl, rfl, rfl⟩ rfl hv E L hin'
    levels ntimes online regs
  refine e1.trans (Eq.trans ?_ e2.symm)
  have hfield : (fun t : Int => O.fields (anomaly s O.ny O.nx (O.z t.toNat))) =
      fun t : Int => (O.add f).fields (anomaly s (O.add f).ny (O.add f).nx ((O.add f).z t.toNat)) := by
    funext t
    have : ∀ w, (O.add f).fields w = O.fields w := fun _ => rfl
    rw [this]
    apply fields_congr
    intro r hr c hc
    rcases hs with ⟨rfl, rfl⟩ | ⟨rfl, rfl⟩
    · exact ((anomaly_lines O.ny O.nx (O.z t.toNat) (b t.toNat)).1 r c hc).symm
    · exact ((anomaly_lines O.ny O.nx (O.z t.toNat) (b t.toNat)).2 r hr c).symm
  show trackFields E c L (fun t : Int => O.fields (anomaly s O.ny O.nx (O.z t.toNat))) levels t0 tf O.T ntimes online regs =
    trackFields E c L (fun t : Int => (O.add f).fields (anomaly s (O.add f).ny (O.add f).nx ((O.add f).z t.toNat))) levels t0 tf O.T
      ntimes online regs
  rw [hfield]

/-- **C97**, the moving average away from the border -/
theorem C97_interior (O : Series) (b : ℝ) (k t : ℕ) {r c : ℕ} (hr : k / 2 ≤ r ∧ r + k / 2 < O.ny) (hc : k / 2 ≤ c ∧ c + k / 2 < O.nx) :
    anomaly (.convolution .uniform k) O.ny O.nx ((O.add fun _ _ _ => b).z t) r c =
      anomaly (.convolution .uniform k) O.ny O.nx (O.z t) r c :=
  anomaly_square O.ny O.nx k (O.z t) b hr.1 hr.2 hc.1 hc.2

/-! ### every series can be stored -/

/-- a dataset with the dimensions time, latitude and longitude -/
noncomputable def storeSeries (O : Series) : Dataset where
  keys := ["sla"]
  var n := if n = "sla" then some ⟨[("time", O.T), ("latitude", O.ny), ("longitude", O.nx)],
    fun ix => O.z (ix "time") (ix "latitude") (ix "longitude")⟩ else none
  coord n := if n = "longitude" then some (.d1 O.lon) else if n = "latitude" then some (.d1 O.lat) else none

theorem storeSeries_holds (O : Series) (hy : O.ny ≠ 1) (hx : O.nx ≠ 1) :
    Holds (storeSeries O) "sla" O ⟨[("time", O.T), ("latitude", O.ny), ("longitude", O.nx)],
      fun ix => O.z (ix "time") (ix "latitude") (ix "longitude")⟩ "time" "latitude" "longitude" where
  var := rfl
  nodup := by simp
  time := by simp
  rest := by simp [hy, hx]
  roles := by decide +kernel
  unique := by
    intro p hp
    simp only [List.mem_cons, List.not_mem_nil, or_false] at hp
    rcases hp with rfl | rfl | rfl <;> simp only <;> decide +kernel
  keys := by
    left
    show ∀ k ∈ ["sla"], _
    decide +kernel
  lon := rfl
  lat := rfl
  values := fun ix _ => rfl

/-- with 121/109 added to the example, the default filter gives the field plus 1 -/
theorem exAnomaly_add (T t : ℕ) : ((exSeries T).add fun _ _ _ => 121 / 109).fields
    (anomaly defaultSetup 3 4 (((exSeries T).add fun _ _ _ => 121 / 109).z t)) = exField.shift 1 := by
  have hz : ∀ r c, ((exSeries T).add fun _ _ _ => 121 / 109).z t r c =
      if r < 3 ∧ c < 4 then some ((if r = 1 ∧ (c = 1 ∨ c = 2) then 1 else 0) + 2 / 109 + 121 / 109) else none := by
    intro r c
    unfold Spec.Series.add exSeries
    simp only
    split_ifs <;> rfl
  have hm : ∀ r < 3, ∀ c < 4, squareMean 3 4 5 (((exSeries T).add fun _ _ _ => 121 / 109).z t) r c = 2 / 109 + 12 / 109 := by
    intro r hr c hc
    have hs : square 3 4 5 r c = Finset.range 3 ×ˢ Finset.range 4 := by
      unfold square
      rw [Finset.filter_true_of_mem]
      intro p hp
      simp only [Finset.mem_product, Finset.mem_range] at hp
      omega
    have hn : ((square 3 4 5 r c).filter fun p => ((exSeries T).add fun _ _ _ => 121 / 109).z t p.1 p.2 = none) = ∅ := by
      rw [hs, Finset.filter_false_of_mem]
      intro p hp
      simp only [Finset.mem_product, Finset.mem_range] at hp
      simp [hz, hp]
    unfold squareMean
    rw [hn, hs, Finset.sum_product]
    simp only [Finset.sum_range_succ, Finset.sum_range_zero, hz]
    norm_num
  unfold Spec.Series.fields Fields.shift exField fldArr toFld
  congr 2
  funext r c
  dsimp only
  by_cases h : r < 3 ∧ c < 4
  · have h' : r < ((exSeries T).add fun _ _ _ => 121 / 109).ny ∧ c < ((exSeries T).add fun _ _ _ => 121 / 109).nx := h
    rw [dif_pos h', if_pos h]
    show (((exSeries T).add fun _ _ _ => 121 / 109).z t r c).map
      (· - squareMean 3 4 5 (((exSeries T).add fun _ _ _ => 121 / 109).z t) r c) = _
    rw [hm r h.1 c h.2, hz, if_pos h]
    simp only [Option.map_some, Option.some.injEq]
    ring
  · have h' : ¬ (r < ((exSeries T).add fun _ _ _ => 121 / 109).ny ∧ c < ((exSeries T).add fun _ _ _ => 121 / 109).nx) := h
    rw [dif_neg h', if_neg h]
    rfl

theorem exq_no_contours : Cntr.extractContours exqX exqY exqZ (-(1 / 2)) 50 Cntr.exMem = .ok ([], []) := by
  decide +kernel

/-- the field has no contour below all values -/
theorem exField_no_contours (L : Libs) : contourList L (exField.shift 1) (1 / 2) = [] := by
  have e : (1 / 2 : ℝ) = -(1 / 2) + 1 := by norm_num
  rw [e, contourList_shift L exField_ok]
  obtain ⟨cds, h⟩ := Cntr.extract_cast (Rat.castHom ℝ) Rat.cast_strictMono (X := exqX) (Y := exqY) (Z := exqZ)
    (mem' := L.mem exField.data (-(1 / 2))) (fuel' := 4 * (4 * 3) + 2)
    ⟨rfl, rfl, fun M hM => by cases hM⟩ (-(1 / 2)) (by decide) (by decide) (L := []) exq_no_contours
  obtain ⟨hX, hY, hZ⟩ := exField_cast
  have hl : Rat.castHom ℝ (-(1 / 2)) = -(1 / 2) := by norm_num
  rw [hX, hY, hZ, hl] at h
  unfold contourList contoursOf
  have hd : 4 * (exField.data.cols * exField.data.rows) + 2 = 4 * (4 * 3) + 2 := rfl
  rw [hd, h]
  simp

/-- **C97** is false: with the default settings, the eddy of a dataset is not found any more if a constant is added to the data. -/
theorem C97_refuted : ∃ (nn : List (ℝ × ℝ) → ℝ × ℝ → Nat) (O : Series) (b : ℝ) (o o' : Tracker) (s s' : LoopState Cols),
    IsNN haversine nn ∧ newTracker (storeSeries O) "sla" false = .ok o ∧
    newTracker (storeSeries (O.add fun _ _ _ => b)) "sla" false = .ok o' ∧ o.setup = defaultSetup ∧ o'.setup = defaultSetup ∧
    ({ o with criteria := exCriteria }.timeTracking (colsEnv true nn) exLibs 0 (some 1) (.array [1 / 2]) 1 true Regs.empty).2 = .ok s ∧
    ({ o' with criteria := exCriteria }.timeTracking (colsEnv true nn) exLibs 0 (some 1) (.array [1 / 2]) 1 true Regs.empty).2 =
      .ok s' ∧ s.table.rows ≠ [] ∧ s'.table.rows = [] := by
  obtain ⟨nn, hnn⟩ := exists_isNN haversine
  obtain ⟨s, hs⟩ := exLongRun hnn (f := 1) (by norm_num) 1 1
  have h1 := storeSeries_holds (exSeries 1) (by simp [exSeries, Spec.Series.ny]) (by simp [exSeries, Spec.Series.nx])
  have h2 := storeSeries_holds ((exSeries 1).add fun _ _ _ => 121 / 109) (by simp [Spec.Series.add, exSeries, Spec.Series.ny])
    (by simp [Spec.Series.add, exSeries, Spec.Series.nx])
  refine ⟨nn, exSeries 1, 121 / 109, _, _, s, ⟨⟨[], []⟩, [0], []⟩, hnn, h1.new false, h2.new false, rfl, rfl, ?_, ?_,
    exLongRun_ne hnn (by norm_num) hs, rfl⟩
  · have hin : InSeries (exSeries 1) 0 (some 1) := Or.inr (Or.inr ⟨le_rfl, 1, rfl, le_rfl⟩)
    have := h1.run_in (o := { freshTracker (storeSeries (exSeries 1)) _ (exSeries 1) false with criteria := exCriteria }) ⟨rfl, rfl, rfl, rfl⟩ rfl trivial
      (colsEnv true nn) exLibs hin [1 / 2] 1 true Regs.empty
    refine (congrArg Prod.snd this).trans ?_
    have hfield : (fun t : Int => (exSeries 1).fields (anomaly defaultSetup 3 4 ((exSeries 1).z t.toNat))) = fun _ => exField :=
      funext fun t => exAnomaly 1 _
    show (trackFields (colsEnv true nn) exCriteria exLibs
      (fun t : Int => (exSeries 1).fields (anomaly defaultSetup 3 4 ((exSeries 1).z t.toNat))) [1 / 2] 0 (some 1) 1 1 true
      Regs.empty).2 = _
    rw [hfield]
    exact hs
  · have hin : InSeries ((exSeries 1).add fun _ _ _ => 121 / 109) 0 (some 1) := Or.inr (Or.inr ⟨le_rfl, 1, rfl, le_rfl⟩)
    have := h2.run_in (o := { freshTracker (storeSeries ((exSeries 1).add fun _ _ _ => 121 / 109)) _
        ((exSeries 1).add fun _ _ _ => 121 / 109) false with criteria := exCriteria })
      ⟨rfl, rfl, rfl, rfl⟩ rfl trivial (colsEnv true nn) exLibs hin [1 / 2] 1 true Regs.empty
    refine (congrArg Prod.snd this).trans ?_
    have hfield : (fun t : Int => ((exSeries 1).add fun _ _ _ => 121 / 109).fields (anomaly defaultSetup 3 4
        (((exSeries 1).add fun _ _ _ => 121 / 109).z t.toNat))) = fun _ => exField.shift 1 :=
      funext fun t => exAnomaly_add 1 _
    show (trackFields (colsEnv true nn) exCriteria exLibs
      (fun t : Int => ((exSeries 1).add fun _ _ _ => 121 / 109).fields (anomaly defaultSetup 3 4
        (((exSeries 1).add fun _ _ _ => 121 / 109).z t.toNat))) [1 / 2] 0 (some 1) 1 1 true Regs.empty).2 = _
    rw [hfield]
    have hok : (exField.shift 1).Ok := ⟨exField_ok.1, exField_ok.2.1, by simp⟩
    rw [(trackFields_pure _ _ _ (fun _ _ => hok) ⟨rfl, rfl⟩).1]
    have hl : ([1 / 2] : List ℝ).filter (· ≠ 0) = [1 / 2] := by norm_num
    have hp : pureSnapshot (colsEnv true nn) exCriteria exLibs (exField.shift 1) [1 / 2] = .ok ⟨[], []⟩ := by
      unfold pureSnapshot detectSnapshot
      rw [hl]
      have hm : levelMeasures exCriteria exLibs (exField.shift 1) (1 / 2) = [] := by
        unfold levelMeasures
        rw [exField_no_contours]
        rfl
      have hpl : ∃ tb : Tbl Cols, pureLevel exCriteria [] = .ok tb ∧ tb.rows = [] := ⟨_, rfl, rfl⟩
      obtain ⟨tb, h3, h4⟩ := hpl
      simp only [List.foldlM_cons, List.foldlM_nil, levelStep, bind, Except.bind, pure, Except.pure, hm, h3, h4]
      rfl
    unfold timeTracking
    have ht : trackTimes 0 (some 1) 1 = [0] := by decide
    rw [ht]
    simp only [List.foldlM_cons, List.foldlM_nil, hp]
    rfl

/-! ### C47 for calls -/

/-- **C47** is false for calls as well: with the filters `time` and `both` no call that has a snapshot and a level to process gives a
table, for any dataset that stores a series. -/
theorem C47_refuted_calls (h : Holds D name O v tn yn xn) {nan : Bool} {o : Tracker} (ho : newTracker D name nan = .ok o) (s : SpaceFilter)
    (c : Criteria ℝ) {Pt : Type} (E : Env Cols ℝ Pt) (L : Libs) {t0 : Int} {tf : Option Int} (ht : InSeries O t0 tf)
    (hne : trackTimes t0 tf O.T ≠ []) (levels : List ℝ) (hl : ∃ l ∈ levels, l ≠ 0) (ntimes : Int) (online : Bool) (regs : Regs Cols) :
    ({ o with filter := .time, setup := s, criteria := c }.timeTracking E L t0 tf (.array levels) ntimes online regs).2 =
      .error .attributeError ∧
    ∃ e, ({ o with filter := .both, setup := s, criteria := c }.timeTracking E L t0 tf (.array levels) ntimes online regs).2 =
      .error e := by
  rw [h.new nan] at ho
  injection ho with ho
  subst ho
  obtain ⟨t, ts, hts⟩ := List.exists_cons_of_ne_nil hne
  have hr := ht.range t (by rw [hts]; simp)
  obtain ⟨l, ls, hls⟩ : ∃ l ls, levels.filter (fun x => x ≠ 0) = l :: ls := by
    apply List.exists_cons_of_ne_nil
    intro h0
    rw [List.filter_eq_nil_iff] at h0
    obtain ⟨l, hl, hl0⟩ := hl
    exact h0 l hl (by simpa using hl0)
  have key : ∀ f : FilterName, f = .time ∨ f = .both → ∀ e,
      (filterData nan s f (toFld O.ny O.nx (O.z (timeIndex O.T t)))).map trackedOf = .error e →
      ({ freshTracker D v O nan with filter := f, setup := s, criteria := c }.timeTracking E L t0 tf (.array levels) ntimes online
        regs).2 = .error e := by
    intro f _ e he
    apply run_first_error (((h.times (o := { freshTracker D v O nan with filter := f, setup := s, criteria := c }) rfl rfl t0 tf)).trans
      (by rw [hts]))
    have hf := h.filtered_eq (o := { freshTracker D v O nan with filter := f, setup := s, criteria := c }) rfl rfl t
    rw [if_pos ⟨by omega, hr.2⟩] at hf
    unfold Tracker.detect Levels.select
    rw [hf.trans he]
  have key' : ∀ f : FilterName, f = .time ∨ f = .both →
      (filterData nan s f (toFld O.ny O.nx (O.z (timeIndex O.T t)))).map trackedOf = .ok .absent →
      ({ freshTracker D v O nan with filter := f, setup := s, criteria := c }.timeTracking E L t0 tf (.array levels) ntimes online
        regs).2 = .error .attributeError := by
    intro f _ he
    apply run_first_error (((h.times (o := { freshTracker D v O nan with filter := f, setup := s, criteria := c }) rfl rfl t0 tf)).trans
      (by rw [hts]))
    have hf := h.filtered_eq (o := { freshTracker D v O nan with filter := f, setup := s, criteria := c }) rfl rfl t
    rw [if_pos ⟨by omega, hr.2⟩] at hf
    unfold Tracker.detect Levels.select
    dsimp only
    rw [hf.trans he, hls]
  refine ⟨key' .time (Or.inl rfl) rfl, ?_⟩
  rcases filterData_time (f := .both) (Or.inr rfl) nan s (toFld O.ny O.nx (O.z (timeIndex O.T t))) with he | ⟨e, he⟩
  · exact ⟨_, key' .both (Or.inr rfl) he⟩
  · exact ⟨e, key .both (Or.inr rfl) e he⟩

/-! ### C90 for calls -/

/-- the anomaly in another unit -/
theorem anomaly_times (a : ℝ) (s : SpaceFilter) (ny nx : ℕ) (z : ℕ → ℕ → Option ℝ) (r c : ℕ) :
    anomaly s ny nx (fun r c => (z r c).map (a * ·)) r c = (anomaly s ny nx z r c).map (a * ·) := by
  have key : ∀ (n : ℕ) (l : ℕ → Option ℝ), average ((List.range n).filterMap fun j => (l j).map (a * ·)) =
      a * average ((List.range n).filterMap l) := by
    intro n l
    rw [← average_scale, List.map_filterMap]
  have keyS : ∀ h, squareMean ny nx h (fun r c => (z r c).map (a * ·)) r c = a * squareMean ny nx h z r c := by
    intro h
    unfold squareMean
    have h1 : ∑ p ∈ square ny nx h r c, ((z p.1 p.2).map (a * ·)).getD 0 = a * ∑ p ∈ square ny nx h r c, (z p.1 p.2).getD 0 := by
      rw [Finset.mul_sum]
      apply Finset.sum_congr rfl
      intro p _
      cases z p.1 p.2 <;> simp
    have h2 : ((square ny nx h r c).filter fun p => (z p.1 p.2).map (a * ·) = none) =
        (square ny nx h r c).filter fun p => z p.1 p.2 = none := by
      apply Finset.filter_congr
      intro p _
      simp
    rw [h1, h2, mul_div_assoc]
  unfold anomaly
  split
  · rw [keyS]
    dsimp only
    cases z r c <;> simp [mul_sub]
  · dsimp only
    rw [key]
    cases z r c <;> simp [mul_sub]
  · dsimp only
    rw [key ny fun r' => z r' c]
    cases z r c <;> simp [mul_sub]
  · rfl

/-- **C90** for calls: data and levels in another unit give the same eddies with the same identifiers, whatever the valid filter. -/
theorem C90_dataset {a : ℝ} (ha : 0 < a) (h : Holds D name O v tn yn xn) (h' : Holds D' name' (O.times a) v' tn' yn' xn') (nan : Bool) :
    ∃ o o', newTracker D name nan = .ok o ∧ newTracker D' name' nan = .ok o' ∧
      ∀ (s : SpaceFilter) (c : Criteria ℝ) (prunes : Bool) (nn : List (ℝ × ℝ) → ℝ × ℝ → Nat) (L : Libs) (t0 : Int) (tf : Option Int)
        (levels : List ℝ) (ntimes : Int) (online : Bool) (regs : Regs Cols), ValidSetup s → (c.skipGauss = true ∨ L.ScaleFree a) →
        InSeries O t0 tf → StoreEmpty regs →
        ({ o' with setup := s, criteria := c }.timeTracking (colsEnv prunes nn) L t0 tf (.array (levels.map (a * ·))) ntimes online
            regs).2 =
          ({ o with setup := s, criteria := c }.timeTracking (colsEnv prunes nn) L t0 tf (.array levels) ntimes online regs).2.map
            (LoopState.mapV (unitCols a)) := by
  refine ⟨_, _, h.new nan, h'.new nan, fun s c prunes nn L t0 tf levels ntimes online regs hs hc hin hr => ?_⟩
  have hin' : InSeries (O.times a) t0 tf := hin
  have e1 := h.run_in (o := { freshTracker D v O nan with setup := s, criteria := c }) ⟨rfl, rfl, rfl, rfl⟩ rfl hs (colsEnv prunes nn) L
    hin levels ntimes online regs
  have e2 := h'.run_in (o := { freshTracker D' v' (O.times a) nan with setup := s, criteria := c }) ⟨rfl, rfl, rfl, rfl⟩ rfl hs
    (colsEnv prunes nn) L hin' (levels.map (a * ·)) ntimes online regs
  refine (congrArg Prod.snd e2).trans (Eq.trans ?_ (congrArg (fun x => x.2.map (LoopState.mapV (unitCols a))) e1).symm)
  have hfield : (fun t : Int => (O.times a).fields (anomaly s (O.times a).ny (O.times a).nx ((O.times a).z t.toNat))) =
      fun t : Int => (O.fields (anomaly s O.ny O.nx (O.z t.toNat))).scale a := by
    funext t
    have e : (O.times a).fields (anomaly s (O.times a).ny (O.times a).nx ((O.times a).z t.toNat)) =
        O.fields fun r c => (anomaly s O.ny O.nx (O.z t.toNat) r c).map (a * ·) := by
      show O.fields _ = _
      apply fields_congr
      intro r _ c _
      exact anomaly_times a s O.ny O.nx (O.z t.toNat) r c
    rw [e]
    unfold Spec.Series.fields Fields.scale fldArr toFld
    congr 2
    funext r c
    simp only
    split_ifs <;> rfl
  show (trackFields (colsEnv prunes nn) c L (fun t : Int => (O.times a).fields (anomaly s (O.times a).ny (O.times a).nx
    ((O.times a).z t.toNat))) (levels.map (a * ·)) t0 tf O.T ntimes online regs).2 = _
  rw [hfield]
  exact C90_unit ha hc (fun t _ => fields_ok _ _) hr

/-! ### the hypotheses can be met -/

theorem exStore (T : ℕ) (O : Series) (h : O.lat = (exSeries T).lat ∧ O.lon = (exSeries T).lon) :
    Holds (storeSeries O) "sla" O ⟨[("time", O.T), ("latitude", O.ny), ("longitude", O.nx)],
      fun ix => O.z (ix "time") (ix "latitude") (ix "longitude")⟩ "time" "latitude" "longitude" := by
  apply storeSeries_holds
  · show O.lat.length ≠ 1
    rw [h.1]
    simp [exSeries]
  · show O.lon.length ≠ 1
    rw [h.2]
    simp [exSeries]

/-- C97_partial: a trend in time and a gradient to the north -/
example (c : Criteria ℝ) {Pt : Type} (E : Env Cols ℝ Pt) (L : Libs) (levels : List ℝ) (regs : Regs Cols) :
    ∃ o o', newTracker (storeSeries (exSeries 5)) "sla" true = .ok o ∧
      newTracker (storeSeries ((exSeries 5).add fun t r _ => t + 2 * r)) "sla" true = .ok o' ∧
      { o with setup := .meridional, criteria := c }.timeTracking E L 1 (some 4) (.array levels) 5 true regs =
        { o' with setup := .meridional, criteria := c }.timeTracking E L 1 (some 4) (.array levels) 5 true regs := by
  obtain ⟨o, o', h1, h2, h3⟩ := C97_partial (exSeries 5) (fun t r => t + 2 * r) (Or.inl ⟨rfl, rfl⟩) (exStore 5 _ ⟨rfl, rfl⟩)
    (exStore 5 _ ⟨rfl, rfl⟩) true
  exact ⟨o, o', h1, h2, h3 c E L 1 (some 4) levels 5 true regs
    (Or.inr (Or.inr ⟨by norm_num, 4, rfl, by simp [exSeries]⟩))⟩

/-- C97_interior: the middle of the grid with a kernel of 3 -/
example (b : ℝ) : anomaly (.convolution .uniform 3) 3 4 (((exSeries 1).add fun _ _ _ => b).z 0) 1 1 =
    anomaly (.convolution .uniform 3) 3 4 ((exSeries 1).z 0) 1 1 :=
  C97_interior (exSeries 1) b 3 0 (by simp [exSeries, Spec.Series.ny]) (by simp [exSeries, Spec.Series.nx])

/-- C47: the example with the filter `time` -/
example {Pt : Type} (E : Env Cols ℝ Pt) (L : Libs) : ∃ o, newTracker (exDataset 2) "sla" false = .ok o ∧
    ({ o with filter := .time, setup := defaultSetup, criteria := exCriteria }.timeTracking E L 0 none (.array [1 / 2]) 1 true
      Regs.empty).2 = .error .attributeError :=
  ⟨_, (dsHolds 2).new false, (C47_refuted_calls (dsHolds 2) ((dsHolds 2).new false) defaultSetup exCriteria E L (t0 := 0)
    (Or.inl rfl) (by decide) [1 / 2] ⟨1 / 2, by simp, by norm_num⟩ 1 true Regs.empty).1⟩

/-- C90: metres and centimetres, with a table that is not empty -/
example : ∃ (nn : List (ℝ × ℝ) → ℝ × ℝ → Nat) (o' : Tracker) (s s' : LoopState Cols),
    newTracker (storeSeries ((exSeries 2).times 100)) "sla" false = .ok o' ∧
    ({ o' with setup := defaultSetup, criteria := exCriteria }.timeTracking (colsEnv true nn) exLibs 0 (some 2)
      (.array ([1 / 2].map (100 * ·))) 1 true Regs.empty).2 = .ok s' ∧
    s'.table.rows ≠ [] ∧ s' = LoopState.mapV (unitCols 100) s := by
  obtain ⟨nn, o, s, hnn, ho, hs, hne⟩ := dsFound false
  obtain ⟨o1, o', h1, h2, h3⟩ := C90_dataset (a := 100) (by norm_num) (dsHolds 2) (exStore 2 ((exSeries 2).times 100) ⟨rfl, rfl⟩) false
  rw [ho] at h1
  injection h1 with h1
  subst h1
  refine ⟨nn, o', s, LoopState.mapV (unitCols 100) s, h2, ?_, ?_, rfl⟩
  · rw [h3 defaultSetup exCriteria true nn exLibs 0 (some 2) [1 / 2] 1 true Regs.empty trivial (Or.inl rfl)
      (Or.inr (Or.inr ⟨le_rfl, 2, rfl, le_rfl⟩)) ⟨rfl, rfl⟩, hs]
    rfl
  · intro h0
    apply hne
    unfold LoopState.mapV Tbl.mapV at h0
    simpa using h0

end Trackeddy
