import Verif.Proofs.Same
import Verif.Props.Part
import Verif.Props.Api
import Verif.Spec.Region

/-!
The anomaly of a part of a map.
-/
namespace Trackeddy
open Spec
open Cntr (InsideBox LineInside Vertex)

theorem squareMean_congr {ny nx h : ℕ} {z z' : ℕ → ℕ → Option ℝ} {r c : ℕ}
    (hz : ∀ p ∈ square ny nx h r c, z' p.1 p.2 = z p.1 p.2) : squareMean ny nx h z' r c = squareMean ny nx h z r c := by
  unfold squareMean
  have e1 : (∑ p ∈ square ny nx h r c, (z' p.1 p.2).getD 0) = ∑ p ∈ square ny nx h r c, (z p.1 p.2).getD 0 :=
    Finset.sum_congr rfl fun p hp => by rw [hz p hp]
  have e2 : ((square ny nx h r c).filter fun p => z' p.1 p.2 = none) = (square ny nx h r c).filter fun p => z p.1 p.2 = none :=
    Finset.filter_congr fun p hp => by rw [hz p hp]
  rw [e1, e2]

theorem localFilter_valid {s : SpaceFilter} {h : ℕ} (hs : LocalFilter s h) : ValidSetup s := by cases hs <;> trivial

/-- the anomaly depends on the data around a point -/
theorem anomaly_local {s : SpaceFilter} {h ny nx : ℕ} (hs : LocalFilter s h) {z z' : ℕ → ℕ → Option ℝ} {r c : ℕ} (hr : r < ny) (hc : c < nx)
    (hz : ∀ r' < ny, ∀ c' < nx, r ≤ r' + h → r' ≤ r + h → c ≤ c' + h → c' ≤ c + h → z' r' c' = z r' c') :
    anomaly s ny nx z' r c = anomaly s ny nx z r c := by
  have e0 := hz r hr c hc (by omega) (by omega) (by omega) (by omega)
  cases hs with
  | uniform k =>
    show (z' r c).map _ = (z r c).map _
    rw [e0, squareMean_congr]
    intro p hp
    unfold square at hp
    simp only [Finset.mem_filter, Finset.mem_product, Finset.mem_range] at hp
    exact hz _ hp.1.1 _ hp.1.2 hp.2.1 hp.2.2.1 hp.2.2.2.1 hp.2.2.2.2
  | unfiltered k => exact e0

/-- the anomaly of a part, away from its ends -/
theorem anomaly_part {s : SpaceFilter} {h ny nx : ℕ} (hs : LocalFilter s h) (z : ℕ → ℕ → Option ℝ) {J0 NJ I0 NI r c : ℕ} (hJ : J0 + NJ ≤ ny)
    (hI : I0 + NI ≤ nx) (hr : r < NJ) (hc : c < NI) (mj : Margin h ny J0 NJ r 1) (mi : Margin h nx I0 NI c 1) :
    anomaly s NJ NI (fun r c => z (J0 + r) (I0 + c)) r c = anomaly s ny nx z (J0 + r) (I0 + c) := by
  cases hs with
  | unfiltered k => rfl
  | uniform k =>
    obtain ⟨a1, a2⟩ := mj
    obtain ⟨b1, b2⟩ := mi
    let f : ℕ × ℕ ↪ ℕ × ℕ := ⟨fun p => (J0 + p.1, I0 + p.2), fun p q hpq => by
      have h1 := (Prod.ext_iff.1 hpq).1
      have h2 := (Prod.ext_iff.1 hpq).2
      simp only at h1 h2
      exact Prod.ext (by omega) (by omega)⟩
    have hf : ∀ q, f q = (J0 + q.1, I0 + q.2) := fun _ => rfl
    have e : square ny nx (k / 2) (J0 + r) (I0 + c) = (square NJ NI (k / 2) r c).map f := by
      ext p
      unfold square
      simp only [Finset.mem_filter, Finset.mem_product, Finset.mem_range, Finset.mem_map]
      constructor
      · rintro ⟨⟨p1, p2⟩, p3, p4, p5, p6⟩
        refine ⟨(p.1 - J0, p.2 - I0), ⟨⟨?_, ?_⟩, ?_, ?_, ?_, ?_⟩, Prod.ext ?_ ?_⟩
        all_goals try rw [hf]
        all_goals simp only
        all_goals omega
      · rintro ⟨q, ⟨⟨q1, q2⟩, q3, q4, q5, q6⟩, rfl⟩
        rw [hf]
        simp only
        omega
    show (z (J0 + r) (I0 + c)).map _ = (z (J0 + r) (I0 + c)).map _
    congr 1
    funext x
    congr 1
    unfold squareMean
    rw [e, Finset.sum_map, Finset.filter_map, Finset.card_map]
    rfl

section
variable {O : Series} {J0 NJ I0 NI : ℕ}

theorem part_ny (h : J0 + NJ ≤ O.ny) : (O.part J0 NJ I0 NI).ny = NJ := by
  show ((O.lat.drop J0).take NJ).length = NJ
  rw [List.length_take, List.length_drop]
  have h : J0 + NJ ≤ O.lat.length := h
  omega

theorem part_nx (h : I0 + NI ≤ O.nx) : (O.part J0 NJ I0 NI).nx = NI := by
  show ((O.lon.drop I0).take NI).length = NI
  rw [List.length_take, List.length_drop]
  have h : I0 + NI ≤ O.lon.length := h
  omega

theorem getD_part (l : List ℝ) {A N i : ℕ} (hi : i < N) : ((l.drop A).take N).getD i 0 = l.getD (A + i) 0 := by
  rw [List.getD_eq_getElem?_getD, List.getD_eq_getElem?_getD, List.getElem?_take, if_pos hi, List.getElem?_drop]

theorem ordered_axis {l : List ℝ} (h : Ordered l) : StrictAxis l.length fun i => l.getD i 0 := by
  have key : ∀ i, (hi : i < l.length) → l.getD i 0 = l[i] := by
    intro i hi
    rw [List.getD_eq_getElem?_getD, List.getElem?_eq_getElem hi, Option.getD_some]
  rcases h with h | h
  · refine Or.inl fun i j hij hj => ?_
    simp only
    rw [key i (hij.trans hj), key j hj]
    exact List.pairwise_iff_getElem.1 h i j _ _ hij
  · refine Or.inr fun i j hij hj => ?_
    simp only
    rw [key i (hij.trans hj), key j hj]
    exact List.pairwise_iff_getElem.1 h i j _ _ hij

theorem ordered_part {l : List ℝ} (h : Ordered l) (A N : ℕ) : Ordered ((l.drop A).take N) := by
  have hs : List.Sublist ((l.drop A).take N) l := (List.take_sublist _ _).trans (List.drop_sublist _ _)
  exact h.imp (fun h => h.sublist hs) fun h => h.sublist hs

theorem fields_gridRect (hx : Ordered O.lon) (hy : Ordered O.lat) (w : ℕ → ℕ → Option ℝ) : (O.fields w).grid.Rect :=
  ⟨_, _, fun _ _ _ _ => ⟨rfl, rfl⟩, ordered_axis hx, ordered_axis hy⟩

theorem fields_rectilinear (hx : Ordered O.lon) (hy : Ordered O.lat) (w : ℕ → ℕ → Option ℝ) : (O.fields w).Rectilinear :=
  ⟨_, _, fun _ _ => rfl, fun _ _ => rfl, mono_of_strict (ordered_axis hx), mono_of_strict (ordered_axis hy)⟩

theorem fields_get (w : ℕ → ℕ → Option ℝ) {r c : ℕ} (hr : r < O.ny) (hc : c < O.nx) : (O.fields w).data.get r c = w r c := dif_pos ⟨hr, hc⟩

end

section
variable {S S' : Fields} {L : Libs}

theorem contourList_same (h : SameMap S S') (hok : S.Ok) (l : ℝ) : contourList L S' l = contourList L S l := by
  unfold contourList
  rw [contoursOf_same h.X h.Y h.data hok]

theorem insideBox_same (h : SameMap S S') (hok : S.Ok) {j0 nj i0 ni : ℕ} (hj : 0 < nj) (hi : 0 < ni) (hjn : j0 + nj ≤ S.data.rows)
    (hin : i0 + ni ≤ S.data.cols) : InsideBox S'.X S'.Y j0 nj i0 ni = InsideBox S.X S.Y j0 nj i0 ni := by
  obtain ⟨h1, h2, _⟩ := hok
  simp only [Prod.mk.injEq] at h1 h2
  funext p
  unfold InsideBox
  rw [h.X.get j0 (by omega) i0 (by omega), h.X.get j0 (by omega) (i0 + ni - 1) (by omega), h.Y.get j0 (by omega) i0 (by omega),
    h.Y.get (j0 + nj - 1) (by omega) i0 (by omega)]

theorem lineInside_same (h : SameMap S S') (hok : S.Ok) {j0 nj i0 ni : ℕ} (hj : 0 < nj) (hi : 0 < ni) (hjn : j0 + nj ≤ S.data.rows)
    (hin : i0 + ni ≤ S.data.cols) : LineInside (K := ℝ) S'.X S'.Y j0 nj i0 ni = LineInside S.X S.Y j0 nj i0 ni := by
  funext vs
  unfold LineInside
  rw [insideBox_same h hok hj hi hjn hin]

theorem contoursInside_same (h : SameMap S S') (hok : S.Ok) {j0 nj i0 ni : ℕ} (hj : 0 < nj) (hi : 0 < ni) (hjn : j0 + nj ≤ S.data.rows)
    (hin : i0 + ni ≤ S.data.cols) (l : ℝ) : contoursInside L S' l j0 nj i0 ni = contoursInside L S l j0 nj i0 ni := by
  unfold contoursInside
  rw [contourList_same h hok, lineInside_same h hok hj hi hjn hin]

end

end Trackeddy
