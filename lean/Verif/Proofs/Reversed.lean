import Verif.Spec.Reversed
import Verif.Proofs.Region
import Verif.Proofs.Cntr.Relisted
import Verif.Props.Area
import Verif.Props.Pipeline
import Mathlib.Algebra.BigOperators.Intervals

/-!
Maps with the rows or columns in the other order.
-/
namespace Trackeddy
open Spec
open Cntr (Vertex)

theorem fromEnd_lt {b : Bool} {n i : ℕ} (h : i < n) : fromEnd b n i < n := by
  unfold fromEnd
  split_ifs <;> omega

theorem fromEnd_fromEnd {b : Bool} {n i : ℕ} (h : i < n) : fromEnd b n (fromEnd b n i) = i := by
  unfold fromEnd
  split_ifs <;> omega

theorem getD_fromEnd {b : Bool} {l : List ℝ} {i : ℕ} (h : i < l.length) :
    (if b then l.reverse else l).getD i 0 = l.getD (fromEnd b l.length i) 0 := by
  unfold fromEnd
  cases b
  · rfl
  · simp only [if_true, List.getD_eq_getElem?_getD, List.getElem?_reverse h]

theorem map_fromEnd (b : Bool) (n : ℕ) : ((List.range n).map (fromEnd b n)).Perm (List.range n) := by
  rw [List.perm_ext_iff_of_nodup]
  · intro a
    simp only [List.mem_map, List.mem_range]
    constructor
    · rintro ⟨i, hi, rfl⟩
      exact fromEnd_lt hi
    · exact fun ha => ⟨fromEnd b n a, fromEnd_lt ha, fromEnd_fromEnd ha⟩
  · apply List.Nodup.map_on
    · intro x hx y hy h
      rw [List.mem_range] at hx hy
      rw [← fromEnd_fromEnd (b := b) hx, h, fromEnd_fromEnd hy]
    · exact List.nodup_range
  · exact List.nodup_range

theorem average_perm {l l' : List ℝ} (h : l.Perm l') : average l = average l' := by
  unfold average
  rw [h.sum_eq, h.length_eq]

theorem average_fromEnd (b : Bool) (n : ℕ) (f : ℕ → Option ℝ) :
    average ((List.range n).filterMap fun i => f (fromEnd b n i)) = average ((List.range n).filterMap f) := by
  apply average_perm
  have : ((List.range n).filterMap fun i => f (fromEnd b n i)) = ((List.range n).map (fromEnd b n)).filterMap f := by
    rw [List.filterMap_map]
    rfl
  rw [this]
  exact (map_fromEnd b n).filterMap f

theorem mem_square_fromEnd {a b : Bool} {ny nx h r c : ℕ} (hr : r < ny) (hc : c < nx) {p : ℕ × ℕ} :
    p ∈ square ny nx h r c → (fromEnd a ny p.1, fromEnd b nx p.2) ∈ square ny nx h (fromEnd a ny r) (fromEnd b nx c) := by
  unfold square fromEnd
  simp only [Finset.mem_filter, Finset.mem_product, Finset.mem_range]
  intro hp
  split_ifs <;> omega

theorem squareMean_reversed (a b : Bool) {ny nx : ℕ} (h : ℕ) (z : ℕ → ℕ → Option ℝ) {r c : ℕ} (hr : r < ny) (hc : c < nx) :
    squareMean ny nx h (fun r c => z (fromEnd a ny r) (fromEnd b nx c)) r c = squareMean ny nx h z (fromEnd a ny r) (fromEnd b nx c) := by
  have hin : ∀ {p : ℕ × ℕ} {r c : ℕ}, p ∈ square ny nx h r c → p.1 < ny ∧ p.2 < nx := by
    intro p r c hp
    unfold square at hp
    simp only [Finset.mem_filter, Finset.mem_product, Finset.mem_range] at hp
    exact hp.1
  have back : ∀ {p : ℕ × ℕ}, p ∈ square ny nx h (fromEnd a ny r) (fromEnd b nx c) → (fromEnd a ny p.1, fromEnd b nx p.2) ∈ square ny nx h r c := by
    intro p hp
    have := mem_square_fromEnd (a := a) (b := b) (fromEnd_lt hr) (fromEnd_lt hc) hp
    rwa [fromEnd_fromEnd hr, fromEnd_fromEnd hc] at this
  unfold squareMean
  congr 1
  · refine Finset.sum_nbij' (fun p => (fromEnd a ny p.1, fromEnd b nx p.2)) (fun p => (fromEnd a ny p.1, fromEnd b nx p.2))
      (fun p hp => mem_square_fromEnd hr hc hp) (fun p hp => back hp) (fun p hp => ?_) (fun p hp => ?_) (fun p hp => rfl)
    all_goals
      obtain ⟨h1, h2⟩ := hin hp
      simp only [fromEnd_fromEnd h1, fromEnd_fromEnd h2]
  · congr 2
    refine Finset.card_nbij' (fun p => (fromEnd a ny p.1, fromEnd b nx p.2)) (fun p => (fromEnd a ny p.1, fromEnd b nx p.2))
      (fun p hp => ?_) (fun p hp => ?_) (fun p hp => ?_) (fun p hp => ?_)
    · simp only [Finset.coe_filter, Set.mem_setOf_eq] at hp ⊢
      exact ⟨mem_square_fromEnd hr hc hp.1, hp.2⟩
    · simp only [Finset.coe_filter, Set.mem_setOf_eq] at hp ⊢
      obtain ⟨h1, h2⟩ := hin hp.1
      exact ⟨back hp.1, by rw [fromEnd_fromEnd h1, fromEnd_fromEnd h2]; exact hp.2⟩
    all_goals
      simp only [Finset.coe_filter, Set.mem_setOf_eq] at hp
      obtain ⟨h1, h2⟩ := hin hp.1
      simp only [fromEnd_fromEnd h1, fromEnd_fromEnd h2]

/-- the anomaly of the reversed map is the reversed anomaly -/
theorem anomaly_reversed (s : SpaceFilter) (a b : Bool) {ny nx : ℕ} (z : ℕ → ℕ → Option ℝ) {r c : ℕ} (hr : r < ny) (hc : c < nx) :
    anomaly s ny nx (fun r c => z (fromEnd a ny r) (fromEnd b nx c)) r c = anomaly s ny nx z (fromEnd a ny r) (fromEnd b nx c) := by
  match s with
  | .convolution .uniform k =>
    unfold anomaly
    simp only [squareMean_reversed a b (k / 2) z hr hc]
  | .meridional =>
    unfold anomaly
    simp only [average_fromEnd b nx fun c' => z (fromEnd a ny r) c']
  | .zonal =>
    unfold anomaly
    simp only [average_fromEnd a ny fun r' => z r' (fromEnd b nx c)]
  | .convolution .gaussian k => rfl
  | .convolution .other k => rfl
  | .other => rfl

/-- an array with the rows and columns in the other order -/
def revArr {β : Type} (a b : Bool) (m : Cntr.NdArr β) : Cntr.NdArr β := ⟨m.rows, m.cols, fun r c => m.get (fromEnd a m.rows r) (fromEnd b m.cols c)⟩

/-- the map with the rows and columns in the other order -/
def Fields.reversed (S : Fields) (a b : Bool) : Fields := ⟨revArr a b S.X, revArr a b S.Y, revArr a b S.data⟩

theorem reversed_ok {S : Fields} (h : S.Ok) (a b : Bool) : (S.reversed a b).Ok := ⟨h.1, h.2.1, fun M hM => by cases hM⟩

/-- the lines of the reversed map, as lists of points -/
theorem reversed_lists {S : Fields} (h : S.Ok) (a b : Bool) {l : ℝ} {cs : List (List Side)} (hcs : Contours S.grid l cs) :
    ∃ ds, Contours (S.reversed a b).grid l ds ∧ ds.map (List.map ((S.reversed a b).grid.point l)) = cs.map (List.map (S.grid.point l)) := by
  have rows : ∀ {S : Fields}, S.Ok → ∀ {cs : List (List Side)}, Contours S.grid l cs →
      ∃ ds, Contours (S.reversed true false).grid l ds ∧
        ds.map (List.map ((S.reversed true false).grid.point l)) = cs.map (List.map (S.grid.point l)) := by
    intro S h cs hcs
    exact Cntr.iso_lists (Cntr.flipRowsIso h l) hcs
  have cols : ∀ {S : Fields}, S.Ok → ∀ {cs : List (List Side)}, Contours S.grid l cs →
      ∃ ds, Contours (S.reversed false true).grid l ds ∧
        ds.map (List.map ((S.reversed false true).grid.point l)) = cs.map (List.map (S.grid.point l)) := by
    intro S h cs hcs
    obtain ⟨ds1, d1, e1⟩ := Cntr.iso_lists (Cntr.transposeIso l) hcs
    obtain ⟨ds2, d2, e2⟩ := Cntr.iso_lists (Cntr.flipRowsIso (Cntr.shape_transpose h) l) d1
    obtain ⟨ds3, d3, e3⟩ := Cntr.iso_lists (Cntr.transposeIso l) d2
    exact ⟨ds3, d3, e3.trans (e2.trans e1)⟩
  cases a <;> cases b
  · exact ⟨cs, hcs, rfl⟩
  · exact cols h hcs
  · exact rows h hcs
  · obtain ⟨ds1, d1, e1⟩ := rows h hcs
    obtain ⟨ds2, d2, e2⟩ := cols (reversed_ok h true false) d1
    exact ⟨ds2, d2, e2.trans e1⟩

/-- the contours of the reversed map -/
theorem contourList_reversed {S : Fields} (h : S.Ok) (a b : Bool) (L : Libs) (l : ℝ) :
    SamePolygons (contourList L S l) (contourList L (S.reversed a b) l) := by
  obtain ⟨_, cs, h1, h2⟩ := contourList_lines L h l
  obtain ⟨_, cs', h1', h2'⟩ := contourList_lines L (reversed_ok h a b) l
  obtain ⟨ds, d1, d2⟩ := reversed_lists h a b h1
  rw [h2, h2']
  have e : cs.map (fun es => es.map (S.grid.point l)) = ds.map (List.map ((S.reversed a b).grid.point l)) := d2.symm
  rw [e]
  exact Cntr.samePolygons_map _ (Cntr.contours_polygons d1 h1')

/-! ### what is enclosed -/

/-- the pixel in the reversed map -/
def revPix (a b : Bool) (ny nx : ℕ) (p : Int × Int) : Int × Int := (if a then (ny : Int) - 1 - p.1 else p.1, if b then (nx : Int) - 1 - p.2 else p.2)

theorem revPix_revPix (a b : Bool) (ny nx : ℕ) (p : Int × Int) : revPix a b ny nx (revPix a b ny nx p) = p := by
  unfold revPix
  cases a <;> cases b <;> simp

theorem revPix_inWindow (a b : Bool) (ny nx : ℕ) (p : Int × Int) : InWindow ny nx (revPix a b ny nx p) ↔ InWindow ny nx p := by
  unfold revPix InWindow
  cases a <;> cases b <;> simp <;> omega

theorem revPix_adj (a b : Bool) (ny nx : ℕ) {p q : Int × Int} (h : Adj p q) : Adj (revPix a b ny nx p) (revPix a b ny nx q) := by
  unfold revPix Adj at *
  have e : ∀ (n x y : Int), |n - 1 - x - (n - 1 - y)| = |x - y| := by
    intro n x y
    rw [abs_sub_comm x y]
    congr 1
    ring
  cases a <;> cases b <;> simp only [if_true, Bool.false_eq_true, if_false, e, h]

theorem inside_reversed {a b : Bool} {ny nx : ℕ} {C C' : Int × Int → Prop} (hC : ∀ p, C' (revPix a b ny nx p) ↔ C p) {p : Int × Int}
    (h : Inside ny nx C p) : Inside ny nx C' (revPix a b ny nx p) := by
  obtain ⟨h1, h2⟩ := h
  refine ⟨(revPix_inWindow a b ny nx p).2 h1, h2.imp (hC p).2 fun h2 => ?_⟩
  rintro ⟨q, hq, hw⟩
  apply h2
  refine ⟨revPix a b ny nx q, fun h => hq ((revPix_inWindow a b ny nx q).1 h), ?_⟩
  have key : ∀ x y, Relation.ReflTransGen (fun u v => ¬ C' u ∧ Adj u v) x y →
      Relation.ReflTransGen (fun u v => ¬ C u ∧ Adj u v) (revPix a b ny nx x) (revPix a b ny nx y) := by
    intro x y h
    induction h with
    | refl => exact .refl
    | tail _ hs ih =>
      refine ih.tail ⟨fun hc => hs.1 ?_, revPix_adj a b ny nx hs.2⟩
      have := (hC _).2 hc
      rwa [revPix_revPix] at this
  have := key _ _ hw
  rwa [revPix_revPix] at this

/-- the same pixel with natural numbers -/
def revNat (a b : Bool) (ny nx : ℕ) (p : ℕ × ℕ) : ℕ × ℕ := (fromEnd a ny p.1, fromEnd b nx p.2)

theorem revNat_cast {a b : Bool} {ny nx : ℕ} {p : ℕ × ℕ} (h1 : p.1 < ny) (h2 : p.2 < nx) :
    (((revNat a b ny nx p).1 : Int), ((revNat a b ny nx p).2 : Int)) = revPix a b ny nx ((p.1 : Int), (p.2 : Int)) := by
  unfold revNat revPix fromEnd
  cases a <;> cases b <;> simp <;> omega

theorem revNat_revNat {a b : Bool} {ny nx : ℕ} {p : ℕ × ℕ} (h1 : p.1 < ny) (h2 : p.2 < nx) : revNat a b ny nx (revNat a b ny nx p) = p := by
  unfold revNat
  simp only [fromEnd_fromEnd h1, fromEnd_fromEnd h2]

/-- the pixels of a contour -/
def OnPix (pix : List (ℕ × ℕ)) (q : Int × Int) : Prop := q ∈ pix.map fun p => ((p.1 : Int), (p.2 : Int))

theorem onPix_reversed (a b : Bool) {ny nx : ℕ} {pix : List (ℕ × ℕ)} (hp : ∀ p ∈ pix, p.1 < ny ∧ p.2 < nx) (q : Int × Int) :
    OnPix (pix.map (revNat a b ny nx)) (revPix a b ny nx q) ↔ OnPix pix q := by
  unfold OnPix
  simp only [List.map_map, List.mem_map, Function.comp]
  constructor
  · rintro ⟨p, h1, h2⟩
    refine ⟨p, h1, ?_⟩
    rw [revNat_cast (hp p h1).1 (hp p h1).2] at h2
    have := congrArg (revPix a b ny nx) h2
    rwa [revPix_revPix, revPix_revPix] at this
  · rintro ⟨p, h1, h2⟩
    exact ⟨p, h1, by rw [revNat_cast (hp p h1).1 (hp p h1).2, h2]⟩

theorem inside_fromEnd (a b : Bool) {ny nx : ℕ} {pix : List (ℕ × ℕ)} (hp : ∀ p ∈ pix, p.1 < ny ∧ p.2 < nx) {r c : ℕ} (hr : r < ny) (hc : c < nx) :
    Inside ny nx (OnPix (pix.map (revNat a b ny nx))) (((fromEnd a ny r : ℕ) : Int), ((fromEnd b nx c : ℕ) : Int)) ↔ Inside ny nx (OnPix pix) (r, c) := by
  have e : (((fromEnd a ny r : ℕ) : Int), ((fromEnd b nx c : ℕ) : Int)) = revPix a b ny nx ((r : Int), (c : Int)) := revNat_cast (p := (r, c)) hr hc
  rw [e]
  constructor
  · intro h
    have := inside_reversed (a := a) (b := b) (C := OnPix (pix.map (revNat a b ny nx))) (C' := OnPix pix) (fun p => by
      have := onPix_reversed a b hp (revPix a b ny nx p)
      rw [revPix_revPix] at this
      exact this.symm) h
    rwa [revPix_revPix] at this
  · exact inside_reversed (onPix_reversed a b hp)

theorem sum_fromEnd (b : Bool) (n : ℕ) (f : ℕ → ℝ) : ∑ i ∈ Finset.range n, f (fromEnd b n i) = ∑ i ∈ Finset.range n, f i := by
  cases b
  · rfl
  · exact Finset.sum_range_reflect f n

/-- the same gridded data with the rows and columns in the other order -/
structure RevGrid (a b : Bool) (G G' : Spec.Grid ℝ) : Prop where
  nx : G'.nx = G.nx
  ny : G'.ny = G.ny
  x : ∀ r < G.ny, ∀ c < G.nx, G'.x (c, r) = G.x (fromEnd b G.nx c, fromEnd a G.ny r)
  y : ∀ r < G.ny, ∀ c < G.nx, G'.y (c, r) = G.y (fromEnd b G.nx c, fromEnd a G.ny r)
  z : ∀ r < G.ny, ∀ c < G.nx, G'.z (c, r) = G.z (fromEnd b G.nx c, fromEnd a G.ny r)

theorem reversed_grid {S S' : Fields} {a b : Bool} (h : S.Ok) (hS : SameMap (S.reversed a b) S') : RevGrid a b S.grid S'.grid := by
  obtain ⟨h1, h2, _⟩ := h
  simp only [Prod.mk.injEq] at h1 h2
  refine ⟨hS.data.cols, hS.data.rows, fun r hr c hc => ?_, fun r hr c hc => ?_, fun r hr c hc => hS.data.get r hr c hc⟩
  · have hr : r < S.data.rows := hr
    have hc : c < S.data.cols := hc
    have := hS.X.get r (by show r < S.X.rows; omega) c (by show c < S.X.cols; omega)
    show S'.X.get r c = S.X.get (fromEnd a S.data.rows r) (fromEnd b S.data.cols c)
    rw [this, ← h1.1, ← h1.2]
    rfl
  · have hr : r < S.data.rows := hr
    have hc : c < S.data.cols := hc
    have := hS.Y.get r (by show r < S.Y.rows; omega) c (by show c < S.Y.cols; omega)
    show S'.Y.get r c = S.Y.get (fromEnd a S.data.rows r) (fromEnd b S.data.cols c)
    rw [this, ← h2.1, ← h2.2]
    rfl

section
variable {a b : Bool} {G G' : Spec.Grid ℝ}

theorem nearestNear_reversed (h : RevGrid a b G G') {m v : ℝ × ℝ} {p : ℕ × ℕ} (hp : NearestNear G' m v p) :
    NearestNear G m v (revNat a b G.ny G.nx p) := by
  obtain ⟨⟨h1, h2, h3, h4⟩, h5⟩ := hp
  rw [h.ny] at h1
  rw [h.nx] at h2
  rw [h.x _ h1 _ h2] at h3 h5
  rw [h.y _ h1 _ h2] at h4 h5
  refine ⟨⟨fromEnd_lt h1, fromEnd_lt h2, h3, h4⟩, fun q hq => ?_⟩
  obtain ⟨q1, q2, q3, q4⟩ := hq
  have f1 := fromEnd_lt (b := a) q1
  have f2 := fromEnd_lt (b := b) q2
  have := h5 (revNat a b G.ny G.nx q) ⟨by rw [h.ny]; exact f1, by rw [h.nx]; exact f2, by
    show |G'.x (fromEnd b G.nx q.2, fromEnd a G.ny q.1) - m.1| ≤ _
    rw [h.x _ f1 _ f2, fromEnd_fromEnd q1, fromEnd_fromEnd q2]
    exact q3, by
    show |G'.y (fromEnd b G.nx q.2, fromEnd a G.ny q.1) - m.2| ≤ _
    rw [h.y _ f1 _ f2, fromEnd_fromEnd q1, fromEnd_fromEnd q2]
    exact q4⟩
  have e1 : G'.x ((revNat a b G.ny G.nx q).2, (revNat a b G.ny G.nx q).1) = G.x (q.2, q.1) := by
    show G'.x (fromEnd b G.nx q.2, fromEnd a G.ny q.1) = _
    rw [h.x _ f1 _ f2, fromEnd_fromEnd q1, fromEnd_fromEnd q2]
  have e2 : G'.y ((revNat a b G.ny G.nx q).2, (revNat a b G.ny G.nx q).1) = G.y (q.2, q.1) := by
    show G'.y (fromEnd b G.nx q.2, fromEnd a G.ny q.1) = _
    rw [h.y _ f1 _ f2, fromEnd_fromEnd q1, fromEnd_fromEnd q2]
  rw [e1, e2] at this
  exact this

/-- the sum over what is enclosed -/
theorem enclosedSum_reversed (h : RevGrid a b G G') {pix : List (ℕ × ℕ)} (hp : ∀ p ∈ pix, p.1 < G.ny ∧ p.2 < G.nx) :
    enclosedSum G (pix.map (revNat a b G.ny G.nx)) = enclosedSum G' pix := by
  classical
  unfold enclosedSum
  rw [← sum_fromEnd a G.ny, h.ny, h.nx]
  refine Finset.sum_congr rfl fun r hr => ?_
  rw [← sum_fromEnd b G.nx]
  refine Finset.sum_congr rfl fun c hc => ?_
  rw [Finset.mem_range] at hr hc
  have := inside_fromEnd a b hp hr hc
  unfold OnPix at this
  rw [h.z r hr c hc]
  exact if_congr this rfl rfl

/-- the extremum of the reversed map is that of the map -/
theorem extremumIn_reversed (h : RevGrid a b G G') {d : EddyData (Option ℝ)} {pix : List (ℕ × ℕ)} (hp : ∀ p ∈ pix, p.1 < G.ny ∧ p.2 < G.nx)
    (hd : ExtremumIn G' d pix) : ExtremumIn G d (pix.map (revNat a b G.ny G.nx)) := by
  obtain ⟨r, c, v, hr, hc, h1, h2, h3, h4, h5, h6, h7⟩ := hd
  rw [h.ny] at hr
  rw [h.nx] at hc
  rw [h.z r hr c hc] at h1
  rw [h.x r hr c hc] at h3
  rw [h.y r hr c hc] at h4
  rw [← enclosedSum_reversed h hp] at h5
  rw [h.nx, h.ny] at h6 h7
  refine ⟨fromEnd a G.ny r, fromEnd b G.nx c, v, fromEnd_lt hr, fromEnd_lt hc, h1, h2, h3, h4, h5, (inside_fromEnd a b hp hr hc).2 h6, ?_⟩
  intro r' c' w hin hw
  have hr' : r' < G.ny := by have := hin.1.2.1; simp only at this; omega
  have hc' : c' < G.nx := by have := hin.1.2.2.2; simp only at this; omega
  refine h7 (fromEnd a G.ny r') (fromEnd b G.nx c') w ?_ ?_
  · have := inside_fromEnd a b hp (fromEnd_lt (b := a) hr') (fromEnd_lt (b := b) hc')
    rw [fromEnd_fromEnd hr', fromEnd_fromEnd hc'] at this
    exact this.1 hin
  · rw [h.z _ (fromEnd_lt hr') _ (fromEnd_lt hc'), fromEnd_fromEnd hr', fromEnd_fromEnd hc']
    exact hw

end

/-- contour lines of the reversed map are contour lines of the map -/
theorem onContour_reversed {S S' : Fields} {a b : Bool} (h : S.Ok) (hS : SameMap (S.reversed a b) S') {c : Criteria ℝ} {L : Libs} {levels : List ℝ}
    {l : ℝ} (hl : l ∈ levels) (hl0 : l ≠ 0) {vs : List (Vertex ℝ)} (hvs : vs ∈ contourList L S' l) {e : EddyObj}
    (he : examine c L S' l vs = .ok (.stored e)) : OnContour S.grid levels e.data := by
  rw [contourList_same hS (reversed_ok h a b)] at hvs
  obtain ⟨_, ess, h1, h2⟩ := contourList_lines L (reversed_ok h a b) l
  obtain ⟨ds, d1, d2⟩ := reversed_lists (reversed_ok h a b) a b h1
  have hvs' : vs ∈ ds.map (List.map (((S.reversed a b).reversed a b).grid.point l)) := by
    rw [d2]
    rw [h2] at hvs
    exact hvs
  obtain ⟨es, hes, rfl⟩ := List.mem_map.1 hvs'
  have hA : Cntr.Agree ((S.reversed a b).reversed a b).grid S.grid := by
    obtain ⟨g1, g2, _⟩ := h
    simp only [Prod.mk.injEq] at g1 g2
    refine ⟨rfl, rfl, fun p p1 p2 => ?_, fun p p1 p2 => ?_, fun p p1 p2 => ?_, fun p _ _ => rfl⟩
    · have p1 : p.1 < S.data.cols := p1
      have p2 : p.2 < S.data.rows := p2
      show S.X.get (fromEnd a S.X.rows (fromEnd a S.X.rows p.2)) (fromEnd b S.X.cols (fromEnd b S.X.cols p.1)) = S.X.get p.2 p.1
      rw [fromEnd_fromEnd (by omega), fromEnd_fromEnd (by omega)]
    · have p1 : p.1 < S.data.cols := p1
      have p2 : p.2 < S.data.rows := p2
      show S.Y.get (fromEnd a S.Y.rows (fromEnd a S.Y.rows p.2)) (fromEnd b S.Y.cols (fromEnd b S.Y.cols p.1)) = S.Y.get p.2 p.1
      rw [fromEnd_fromEnd (by omega), fromEnd_fromEnd (by omega)]
    · have p1 : p.1 < S.data.cols := p1
      have p2 : p.2 < S.data.rows := p2
      show S.data.get (fromEnd a S.data.rows (fromEnd a S.data.rows p.2)) (fromEnd b S.data.cols (fromEnd b S.data.cols p.1)) = S.data.get p.2 p.1
      rw [fromEnd_fromEnd p2, fromEnd_fromEnd p1]
  obtain ⟨_, h3, curve, i, hst⟩ := examine_stored.1 he
  refine ⟨l, hl, hl0, by simp only [EddyObj.data, hst.lev], es, e.contour, (hA.contours d1).each es hes, ?_, rfl⟩
  rw [← h3]
  exact List.map_congr_left fun f hf => (hA.point (Cntr.contour_sides (d1.each es hes) hf).1).symm

/-- sign and value of the extremum depend on the enclosed points only -/
theorem extremumIn_unique {G : Spec.Grid ℝ} {d d' : EddyData (Option ℝ)} {pix pix' : List (ℕ × ℕ)} (h : ExtremumIn G d pix)
    (h' : ExtremumIn G d' pix') (hp : ∀ p, p ∈ pix ↔ p ∈ pix') : d'.sign = d.sign ∧ d'.maximum = d.maximum := by
  have hC : (fun q : Int × Int => q ∈ pix.map fun p => ((p.1 : Int), (p.2 : Int))) = fun q => q ∈ pix'.map fun p => ((p.1 : Int), (p.2 : Int)) := by
    funext q
    simp only [List.mem_map, hp]
  have hS : enclosedSum G pix' = enclosedSum G pix := by
    classical
    unfold enclosedSum
    exact Finset.sum_congr rfl fun r _ => Finset.sum_congr rfl fun c _ => if_congr (by rw [hC]) rfl rfl
  obtain ⟨r, c, v, hr, hc, h1, h2, -, -, h5, h6, h7⟩ := h
  obtain ⟨r', c', v', hr', hc', h1', h2', -, -, h5', h6', h7'⟩ := h'
  have g1 := h7 r' c' v' (by
    have := h6'
    rw [← hC] at this
    exact this) h1'
  have g2 := h7' r c v (by
    have := h6
    rw [hC] at this
    exact this) h1
  rw [hS] at h5'
  rw [h2, h2']
  rcases h5 with ⟨a1, a2, a3⟩ | ⟨a1, a2, a3⟩ <;> rcases h5' with ⟨b1, b2, b3⟩ | ⟨b1, b2, b3⟩
  · exact ⟨by rw [a2, b2], by rw [le_antisymm (g1.1 a1) (g2.1 b1)]⟩
  · linarith
  · linarith
  · exact ⟨by rw [a2, b2], by rw [le_antisymm (g2.2 b1) (g1.2 a1)]⟩

/-! ### the area -/

theorem relisted_area {l l' : List (ℝ × ℝ)} (h : Relisted l l') (hc : l.IsChain NotOpposite) : areaPolygon l' = areaPolygon l := by
  obtain ⟨m, hm, hl⟩ := h
  rcases hm with rfl | ⟨p, x, A, B, rfl, rfl⟩
  · rcases hl with rfl | rfl
    · rfl
    · exact C33_direction _ hc
  · rcases hl with rfl | rfl
    · exact (C33_first_vertex p x A B).symm
    · have e := C33_first_vertex p x B.reverse A.reverse
      have d := C33_direction _ hc
      simp only [List.reverse_append, List.reverse_cons, List.reverse_nil, List.nil_append, List.cons_append, List.append_assoc] at e d ⊢
      rw [← d, e]

/-- the fields of the series with reversed axes -/
theorem seen_reversed (O : Series) (s : SpaceFilter) (a b : Bool) (t : ℕ) :
    SameMap ((O.fields (anomaly s O.ny O.nx (O.z t))).reversed a b)
      ((O.reversed a b).fields (anomaly s (O.reversed a b).ny (O.reversed a b).nx ((O.reversed a b).z t))) := by
  have ey : (O.reversed a b).ny = O.ny := by unfold Spec.Series.ny Series.reversed; cases a <;> simp
  have ex : (O.reversed a b).nx = O.nx := by unfold Spec.Series.nx Series.reversed; cases b <;> simp
  refine ⟨⟨ey, ex, fun r hr c hc => ?_⟩, ⟨ey, ex, fun r hr c hc => ?_⟩, ey, ex, fun r hr c hc => ?_⟩
  · exact getD_fromEnd hc
  · exact getD_fromEnd hr
  · have hr : r < O.ny := hr
    have hc : c < O.nx := hc
    rw [fields_get _ (ey.symm ▸ hr) (ex.symm ▸ hc), ex, ey]
    show _ = (O.fields (anomaly s O.ny O.nx (O.z t))).data.get (fromEnd a O.ny r) (fromEnd b O.nx c)
    rw [fields_get _ (fromEnd_lt hr) (fromEnd_lt hc)]
    exact anomaly_reversed s a b (O.z t) hr hc

end Trackeddy
