import Verif.Proofs.Step
import Mathlib.Order.Monotone.Basic

/-!
The tracking loop under a change of the times, and when a run fails early.
-/
namespace Trackeddy
open Spec Tbl

variable {α K Pt : Type} [Field K] [LinearOrder K] [IsStrictOrderedRing K]

/-- a row with another time -/
def Row.retime (φ : Int → Int) (r : Row (Int × α)) : Row (Int × α) := ⟨r.id, r.idx, (φ r.val.1, r.val.2)⟩

/-- a table with other times -/
def Tbl.retime (φ : Int → Int) (T : Tbl (Int × α)) : Tbl (Int × α) := ⟨T.lev, T.rows.map (Row.retime φ)⟩

theorem ids_retime (φ : Int → Int) (l : List (Row (Int × α))) : (l.map (Row.retime φ)).map Row.id = l.map Row.id := by
  rw [List.map_map]
  rfl

theorem sortBy_retime {φ : Int → Int} (hφ : StrictMono φ) (l : List (Row (Int × α))) :
    sortBy key3 (l.map (Row.retime φ)) = (sortBy key3 l).map (Row.retime φ) := by
  unfold sortBy
  symm
  apply List.map_insertionSort
  intro a _ b _
  rw [key3_le, key3_le]
  simp only [Row.retime, hφ.lt_iff_lt, hφ.injective.eq_iff]

theorem tagged_retime (φ : Int → Int) (g : Nat → Nat) (t : Int) (rows : List (Row α)) :
    tagged g (φ t) rows = (tagged g t rows).map (Row.retime φ) := by
  unfold tagged
  rw [List.map_map]
  rfl

theorem stamp_retime (φ : Int → Int) (t : Int) (C : Tbl α) :
    (stamp (φ t) C).rows = (stamp t C).rows.map (Row.retime φ) ∧ (stamp (φ t) C).lev = (stamp t C).lev := by
  unfold stamp Tbl.resetSet Tbl.ids
  simp only [List.map_map]
  exact ⟨rfl, rfl⟩

theorem filter_retime (φ : Int → Int) (p : Row (Int × α) → Bool) (hp : ∀ r, p (r.retime φ) = p r) (l : List (Row (Int × α))) :
    (l.map (Row.retime φ)).filter p = (l.filter p).map (Row.retime φ) := by
  rw [List.filter_map]
  congr 1
  apply List.filter_congr
  intro r _
  exact hp r

theorem endsOf_retime (φ : Int → Int) (E : Env α K Pt) (T : Tbl (Int × α)) (k : Nat) : endsOf E (T.retime φ) k = endsOf E T k := by
  unfold endsOf endRow Tbl.retime
  apply List.flatMap_congr
  intro i _
  simp only
  rw [filter_retime φ _ (fun r => rfl), List.getLast?_map, Option.map_map]
  rfl

/-- Two successful runs over the same detections at other times give the same table with other times. -/
theorem run_retime {E : Env α K Pt} (hnn : IsNN E.dist E.nn) {φ : Int → Int} (hφ : StrictMono φ) {snap snap' : Int → Except PyErr (Tbl α)}
    {tf tf' : Option Int} {n n' : Int} (ts : List Int) (hts : ts.Pairwise (· < ·)) (heq : ∀ t ∈ ts, snap' (φ t) = snap t)
    (hsnap : ∀ t ∈ ts, SnapRows (rowsAt snap t)) {s s' : LoopState α}
    (h : run E snap tf n true ts = .ok s) (h' : run E snap' tf' n' true (ts.map φ) = .ok s') : s'.table = s.table.retime φ := by
  have hpw : ∀ l : List Int, l.Pairwise (· < ·) → (l.map φ).Pairwise (· < ·) := by
    intro l hl
    rw [List.pairwise_map]
    exact hl.imp fun h => hφ h
  induction ts using List.reverseRecOn generalizing s s' with
  | nil => injection h with h; injection h' with h'; subst h; subst h'; rfl
  | append_singleton ts t ih =>
    rw [List.map_append, List.map_singleton] at h'
    rw [run_snoc] at h h'
    obtain ⟨h1, h2⟩ := pairwise_snoc hts
    have heq1 : ∀ t ∈ ts, snap' (φ t) = snap t := fun t ht => heq t (by simp [ht])
    have hsn : ∀ t ∈ ts, SnapRows (rowsAt snap t) := fun t ht => hsnap t (by simp [ht])
    have hsn' : ∀ t ∈ ts.map φ, SnapRows (rowsAt snap' t) := by
      intro t ht
      obtain ⟨u, hu, rfl⟩ := List.mem_map.1 ht
      have : rowsAt snap' (φ u) = rowsAt snap u := by unfold rowsAt; rw [heq1 u hu]
      rw [this]
      exact hsn u hu
    cases hr : run E snap tf n true ts with
    | error e => rw [hr] at h; cases h
    | ok s0 =>
      cases hr' : run E snap' tf' n' true (ts.map φ) with
      | error e => rw [hr'] at h'; cases h'
      | ok s0' =>
        rw [hr] at h
        rw [hr'] at h'
        have e0 := ih h1 heq1 hsn hr hr'
        have hi := run_inv hnn ts h1 hsn hr
        have hi' := run_inv hnn (ts.map φ) (hpw ts h1) hsn' hr'
        have et : snap' (φ t) = snap t := heq t (by simp)
        have er : rowsAt snap' (φ t) = rowsAt snap t := by unfold rowsAt; rw [et]
        obtain ⟨C, hC, c⟩ := loopStep_cases hnn hi (hsnap t (by simp)) h
        obtain ⟨C', hC', c'⟩ := loopStep_cases hnn hi' (er ▸ hsnap t (by simp)) h'
        have : C = C' := by rw [et, hC] at hC'; injection hC'
        subst this
        rw [e0] at c'
        have hnil : (s0.table.retime φ).rows = [] ↔ s0.table.rows = [] := by simp [Tbl.retime]
        rcases c with ⟨a1, a2⟩ | ⟨a1, a2, a3⟩ | ⟨a1, a2, k, a3, a4, a5⟩ <;>
          rcases c' with ⟨b1, b2⟩ | ⟨b1, b2, b3⟩ | ⟨b1, b2, k', b3, b4, b5⟩
        · rw [a2, b2]
        · exact absurd a1 b1
        · exact absurd a1 b1
        · exact absurd b1 a1
        · rw [a3, b3]
          have hs := sortBy_retime hφ (stamp t C).rows
          unfold Tbl.resetSet Tbl.retime Tbl.ids
          simp only
          rw [(stamp_retime φ t C).1, hs, ids_retime]
        · exact absurd (hnil.2 a2) b2
        · exact absurd b1 a1
        · exact absurd (hnil.1 b2) a2
        · have hk : k = k' := by
            have h1 := a3.lev_eq
            have h2 : (s0.table.retime φ).lev = List.range k' := b3.lev_eq
            have := congrArg List.length (h1.symm.trans h2)
            simpa using this
          subst hk
          have hst : stepAssign E (s0.table.retime φ) k (C.first.map Row.val) = stepAssign E s0.table k (C.first.map Row.val) := by
            unfold stepAssign
            rw [endsOf_retime]
          have hrows : s'.table.rows = s.table.rows.map (Row.retime φ) := by
            rw [a5, b5, hst, tagged_retime φ, ← sortBy_retime hφ, List.map_append]
            rfl
          have hlev : s'.table.lev = s.table.lev := by
            rw [a4, b4]; unfold Tbl.ids; rw [hrows, ids_retime]
          cases hs : s.table; cases hs' : s'.table
          rw [hs] at hrows hlev
          rw [hs'] at hrows hlev
          simp only at hrows hlev
          rw [hrows, hlev]
          rfl

/-- a run reads the snapshots of its times -/
theorem run_congr (E : Env α K Pt) {snap snap' : Int → Except PyErr (Tbl α)} {tf : Option Int} {n : Int} {online : Bool} {ts : List Int}
    (h : ∀ t ∈ ts, snap t = snap' t) : run E snap tf n online ts = run E snap' tf n online ts := by
  induction ts using List.reverseRecOn with
  | nil => rfl
  | append_singleton ts t ih =>
    rw [run_snoc, run_snoc, ih fun u hu => h u (List.mem_append_left _ hu)]
    congr 1
    funext s
    unfold loopStep
    rw [h t (by simp)]

/-- a run that fails fails with more times too -/
theorem run_error_prefix (E : Env α K Pt) {snap : Int → Except PyErr (Tbl α)} {tf : Option Int} {n : Int} {online : Bool} {e : PyErr} (ts us : List Int)
    (h : run E snap tf n online ts = .error e) : run E snap tf n online (ts ++ us) = .error e := by
  unfold run at h ⊢
  rw [List.foldlM_append, h]
  rfl

end Trackeddy
