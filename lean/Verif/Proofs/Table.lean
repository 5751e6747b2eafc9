import Verif.Model.Table
import Mathlib.Tactic.Linarith

/-! Lemmas about the table operations of Model/Table.lean. -/
namespace Trackeddy

/-! ### usort -/

theorem mem_insU {a b : Nat} {l : List Nat} : b ∈ insU a l ↔ b = a ∨ b ∈ l := by
  induction l with
  | nil => simp [insU]
  | cons c l ih =>
    unfold insU
    split
    · simp
    · split
      · subst_vars; simp
      · simp only [List.mem_cons, ih]; tauto

theorem mem_usort {b : Nat} {l : List Nat} : b ∈ usort l ↔ b ∈ l := by
  induction l with
  | nil => simp [usort]
  | cons a l ih => unfold usort at *; simp [mem_insU, ih]

theorem pairwise_insU {a : Nat} {l : List Nat} (h : l.Pairwise (· < ·)) :
    (insU a l).Pairwise (· < ·) := by
  induction l with
  | nil => simp [insU]
  | cons c l ih =>
    rw [List.pairwise_cons] at h
    unfold insU
    split
    · rename_i hac
      rw [List.pairwise_cons]
      refine ⟨?_, List.pairwise_cons.2 h⟩
      intro x hx
      rcases List.mem_cons.1 hx with rfl | hx
      · exact hac
      · exact lt_trans hac (h.1 x hx)
    · split
      · exact List.pairwise_cons.2 h
      · rw [List.pairwise_cons]
        refine ⟨?_, ih h.2⟩
        intro x hx
        rcases mem_insU.1 hx with rfl | hx
        · omega
        · exact h.1 x hx

theorem pairwise_usort (l : List Nat) : (usort l).Pairwise (· < ·) := by
  induction l with
  | nil => simp [usort]
  | cons a l ih => exact pairwise_insU ih

theorem strict_ext {l₁ l₂ : List Nat} (h₁ : l₁.Pairwise (· < ·)) (h₂ : l₂.Pairwise (· < ·))
    (h : ∀ x, x ∈ l₁ ↔ x ∈ l₂) : l₁ = l₂ := by
  induction l₁ generalizing l₂ with
  | nil =>
    cases l₂ with
    | nil => rfl
    | cons b l => exact absurd ((h b).2 (by simp)) (by simp)
  | cons a l₁ ih =>
    cases l₂ with
    | nil => exact absurd ((h a).1 (by simp)) (by simp)
    | cons b l₂ =>
      rw [List.pairwise_cons] at h₁ h₂
      have hab : a = b := by
        have h1 := (h a).1 (by simp)
        have h2 := (h b).2 (by simp)
        rcases List.mem_cons.1 h1 with h1 | h1
        · exact h1
        · rcases List.mem_cons.1 h2 with h2 | h2
          · exact h2.symm
          · have := h₁.1 _ h2
            have := h₂.1 _ h1
            omega
      subst hab
      congr 1
      apply ih h₁.2 h₂.2
      intro x
      constructor
      · intro hx
        have h3 := h₁.1 x hx
        rcases List.mem_cons.1 ((h x).1 (List.mem_cons_of_mem _ hx)) with h4 | h4
        · omega
        · exact h4
      · intro hx
        have h3 := h₂.1 x hx
        rcases List.mem_cons.1 ((h x).2 (List.mem_cons_of_mem _ hx)) with h4 | h4
        · omega
        · exact h4

theorem usort_congr {l₁ l₂ : List Nat} (h : ∀ x, x ∈ l₁ ↔ x ∈ l₂) : usort l₁ = usort l₂ :=
  strict_ext (pairwise_usort _) (pairwise_usort _) (fun x => by rw [mem_usort, mem_usort, h])

theorem usort_range {l : List Nat} {k : Nat} (h : ∀ x, x ∈ l ↔ x < k) : usort l = List.range k :=
  strict_ext (pairwise_usort _) List.pairwise_lt_range (fun x => by rw [mem_usort, h, List.mem_range])

theorem usort_of_strict {l : List Nat} (h : l.Pairwise (· < ·)) : usort l = l :=
  strict_ext (pairwise_usort _) h (fun _ => mem_usort)

theorem nodup_usort (l : List Nat) : (usort l).Nodup :=
  (pairwise_usort l).imp (fun h => Nat.ne_of_lt h)

theorem usort_length_le {l₁ l₂ : List Nat} (h : ∀ x, x ∈ l₁ → x ∈ l₂) :
    (usort l₁).length ≤ (usort l₂).length := by
  apply List.Subperm.length_le
  exact List.subperm_of_subset (nodup_usort _)
    (fun x hx => mem_usort.2 (h x (mem_usort.1 hx)))

theorem usort_eq_nil {l : List Nat} : usort l = [] ↔ l = [] := by
  constructor
  · intro h
    cases l with
    | nil => rfl
    | cons a l =>
      have := (mem_usort (b := a) (l := a :: l)).2 (by simp)
      rw [h] at this; simp at this
  · rintro rfl; rfl

theorem max?_range {k : Nat} (h : 0 < k) : (List.range k).max? = some (k - 1) := by
  rw [List.max?_eq_some_iff]
  refine ⟨by rw [List.mem_range]; omega, fun b hb => ?_⟩
  rw [List.mem_range] at hb; omega

/-- an element of a strictly ascending list is at least its position -/
theorem idxOf_lt_iff {l : List Nat} (h : l.Pairwise (· < ·)) {a b : Nat} (ha : a ∈ l) (hb : b ∈ l) :
    l.idxOf a < l.idxOf b ↔ a < b := by
  have ha' := List.idxOf_lt_length_of_mem ha
  have hb' := List.idxOf_lt_length_of_mem hb
  have ea : l[l.idxOf a] = a := List.getElem_idxOf ha'
  have eb : l[l.idxOf b] = b := List.getElem_idxOf hb'
  rw [List.pairwise_iff_getElem] at h
  constructor
  · intro hlt
    have := h _ _ ha' hb' hlt
    rwa [ea, eb] at this
  · intro hlt
    by_contra hge
    rcases Nat.lt_or_eq_of_le (Nat.not_lt.1 hge) with h1 | h1
    · have := h _ _ hb' ha' h1
      rw [ea, eb] at this; omega
    · have : a = b := by rw [← ea, ← eb]; simp [h1]
      omega

/-! ### stable sort -/

section sort
variable {β κ : Type*} [LinearOrder κ] {key : β → κ}

theorem perm_sortBy (l : List β) : (sortBy key l).Perm l := List.perm_insertionSort _ _

theorem pairwise_sortBy (l : List β) : (sortBy key l).Pairwise (fun a b => key a ≤ key b) := by
  have : Std.Total (fun a b : β => key a ≤ key b) := ⟨fun a b => le_total _ _⟩
  have : IsTrans β (fun a b : β => key a ≤ key b) := ⟨fun a b c => le_trans⟩
  exact List.pairwise_insertionSort _ _

theorem mem_sortBy {l : List β} {x : β} : x ∈ sortBy key l ↔ x ∈ l := (perm_sortBy l).mem_iff

theorem filter_orderedInsert (k : κ) (a : β) (l : List β) :
    (List.orderedInsert (fun a b => key a ≤ key b) a l).filter (fun x => key x = k) =
      (a :: l).filter (fun x => key x = k) := by
  induction l with
  | nil => rfl
  | cons b l ih =>
    simp only [List.orderedInsert]
    split
    · rfl
    · rename_i h
      rw [List.filter_cons, ih]
      simp only [List.filter_cons]
      by_cases hb : key b = k
      · have : key a ≠ k := by rintro rfl; exact h (le_of_eq hb.symm)
        simp [this]
      · simp [hb]

/-- stability -/
theorem filter_key_sortBy (k : κ) (l : List β) :
    (sortBy key l).filter (fun x => key x = k) = l.filter (fun x => key x = k) := by
  induction l with
  | nil => rfl
  | cons a l ih =>
    have : sortBy key (a :: l) = List.orderedInsert (fun a b => key a ≤ key b) a (sortBy key l) := rfl
    rw [this, filter_orderedInsert, List.filter_cons, ih, List.filter_cons]

/-- a list sorted by key is determined by its key classes -/
theorem sorted_ext {l₁ l₂ : List β} (h₁ : l₁.Pairwise (fun a b => key a ≤ key b))
    (h₂ : l₂.Pairwise (fun a b => key a ≤ key b))
    (h : ∀ k, l₁.filter (fun x => key x = k) = l₂.filter (fun x => key x = k)) : l₁ = l₂ := by
  induction l₁ generalizing l₂ with
  | nil =>
    cases l₂ with
    | nil => rfl
    | cons b l => have := h (key b); simp at this
  | cons a l₁ ih =>
    cases l₂ with
    | nil => have := h (key a); simp at this
    | cons b l₂ =>
      rw [List.pairwise_cons] at h₁ h₂
      have hmem : ∀ x, x ∈ a :: l₁ ↔ x ∈ b :: l₂ := by
        intro x
        have := h (key x)
        constructor
        · intro hx
          have h1 : x ∈ (a :: l₁).filter (fun y => key y = key x) := List.mem_filter.2 ⟨hx, by simp⟩
          rw [this] at h1; exact (List.mem_filter.1 h1).1
        · intro hx
          have h1 : x ∈ (b :: l₂).filter (fun y => key y = key x) := List.mem_filter.2 ⟨hx, by simp⟩
          rw [← this] at h1; exact (List.mem_filter.1 h1).1
      have hle : key b ≤ key a := by
        rcases List.mem_cons.1 ((hmem a).1 (by simp)) with h1 | h1
        · rw [h1]
        · exact h₂.1 _ h1
      have hge : key a ≤ key b := by
        rcases List.mem_cons.1 ((hmem b).2 (by simp)) with h1 | h1
        · rw [h1]
        · exact h₁.1 _ h1
      have hk : key b = key a := le_antisymm hle hge
      have hab : a = b := by
        have := h (key a)
        simp only [List.filter_cons, hk, decide_true, if_true] at this
        exact (List.cons.inj this).1
      subst hab
      congr 1
      apply ih h₁.2 h₂.2
      intro k
      have := h k
      simp only [List.filter_cons] at this
      split at this
      · exact (List.cons.inj this).2
      · exact this

theorem sortBy_of_sorted {l : List β} (h : l.Pairwise (fun a b => key a ≤ key b)) :
    sortBy key l = l :=
  sorted_ext (pairwise_sortBy l) h (fun k => filter_key_sortBy k l)

theorem filter_sortBy (p : β → Bool) (l : List β) :
    (sortBy key l).filter p = sortBy key (l.filter p) := by
  apply sorted_ext (key := key) ((pairwise_sortBy l).filter _) (pairwise_sortBy _)
  intro k
  rw [filter_key_sortBy, List.filter_filter]
  have : ∀ l : List β, l.filter (fun a => decide (key a = k) && p a) =
      (l.filter (fun a => key a = k)).filter p := by
    intro l; rw [List.filter_filter]; simp only [Bool.and_comm]
  rw [this, filter_key_sortBy, List.filter_filter, List.filter_filter]
  simp only [Bool.and_comm]

/-- sorting by a finer key absorbs a previous sort -/
theorem sortBy_sortBy {κ' : Type*} [LinearOrder κ'] {key' : β → κ'}
    (hfine : ∀ a b, key a = key b → key' a = key' b) (l : List β) :
    sortBy key (sortBy key' l) = sortBy key l := by
  apply sorted_ext (key := key) (pairwise_sortBy _) (pairwise_sortBy _)
  intro k
  rw [filter_key_sortBy, filter_key_sortBy]
  by_cases h : ∃ a ∈ l, key a = k
  · obtain ⟨a, -, rfl⟩ := h
    have : ∀ l : List β, l.filter (fun x => key x = key a) =
        (l.filter (fun x => key' x = key' a)).filter (fun x => key x = key a) := by
      intro l
      rw [List.filter_filter]
      apply List.filter_congr
      intro x _
      by_cases hx : key x = key a
      · simp [hx, hfine _ _ hx]
      · simp [hx]
    rw [this, filter_key_sortBy, ← this]
  · have h1 : ∀ x ∈ l, ¬ key x = k := fun x hx hk => h ⟨x, hx, hk⟩
    have h2 : l.filter (fun x => key x = k) = [] := by
      rw [List.filter_eq_nil_iff]; simpa using h1
    rw [h2, List.filter_eq_nil_iff]
    intro x hx
    simpa using h1 x (mem_sortBy.1 hx)

theorem sortBy_eq_nil {l : List β} : sortBy key l = [] ↔ l = [] := by
  constructor
  · intro h
    have := perm_sortBy (key := key) l
    rw [h] at this
    exact this.nil_eq.symm
  · rintro rfl; rfl

end sort

/-! ### table operations -/

theorem mapM_ok {β γ ε : Type} {f : β → Except ε γ} {g : β → γ} {l : List β}
    (h : ∀ x ∈ l, f x = .ok (g x)) : l.mapM f = .ok (l.map g) := by
  induction l with
  | nil => rfl
  | cons a l ih =>
    rw [List.mapM_cons, h a (by simp), ih (fun x hx => h x (by simp [hx]))]
    rfl

namespace Tbl
variable {α : Type}

/-- every identifier of a row is a level -/
def WF (t : Tbl α) : Prop := ∀ r ∈ t.rows, r.id ∈ t.lev

/-- apply a function to the identifiers of some rows -/
def relab (g : Nat → Nat) (l : List (Row α)) : List (Row α) := l.map fun r => { r with id := g r.id }

theorem relab_congr {g g' : Nat → Nat} {l : List (Row α)} (h : ∀ r ∈ l, g r.id = g' r.id) :
    relab g l = relab g' l := by
  unfold relab
  apply List.map_congr_left
  intro r hr
  rw [h r hr]

theorem relab_id {g : Nat → Nat} {l : List (Row α)} (h : ∀ r ∈ l, g r.id = r.id) :
    relab g l = l := by
  unfold relab
  conv_rhs => rw [← List.map_id l]
  apply List.map_congr_left
  intro r hr
  rw [h r hr]; rfl

theorem relab_relab (g g' : Nat → Nat) (l : List (Row α)) :
    relab g (relab g' l) = relab (fun i => g (g' i)) l := by
  simp [relab]

theorem relab_append (g : Nat → Nat) (l l' : List (Row α)) :
    relab g (l ++ l') = relab g l ++ relab g l' := by simp [relab]

theorem mem_relab {g : Nat → Nat} {l : List (Row α)} {r : Row α} :
    r ∈ relab g l ↔ ∃ s ∈ l, r = { s with id := g s.id } := by
  simp [relab, eq_comm]

theorem ids_relab (g : Nat → Nat) (l : List (Row α)) :
    (relab g l).map Row.id = (l.map Row.id).map g := by simp [relab]

theorem mem_ids {t : Tbl α} {i : Nat} : i ∈ t.ids ↔ ∃ r ∈ t.rows, r.id = i := by simp [ids]

theorem setLevels_ok {t : Tbl α} {new : List Nat} {g : Nat → Nat}
    (h : ∀ r ∈ t.rows, new[t.lev.idxOf r.id]? = some (g r.id)) :
    t.setLevels new = .ok ⟨new, relab g t.rows⟩ := by
  unfold setLevels
  rw [mapM_ok (g := fun r : Row α => { r with id := g r.id })]
  · rfl
  · intro r hr
    rw [h r hr]

theorem resetSet_wf (t : Tbl α) : t.resetSet.WF := by
  intro r hr
  exact mem_usort.2 (mem_ids.2 ⟨r, hr, rfl⟩)

/-- shifting all levels by a constant -/
theorem setLevels_shift {t : Tbl α} (h : t.WF) (k : Nat) :
    t.setLevels (t.lev.map (· + k + 1)) =
      .ok ⟨t.lev.map (· + k + 1), relab (· + k + 1) t.rows⟩ := by
  apply setLevels_ok
  intro r hr
  rw [List.getElem?_map, List.getElem?_eq_getElem (List.idxOf_lt_length_of_mem (h r hr)),
    List.getElem_idxOf]
  rfl

theorem rename_rows (t : Tbl α) (old new : Nat) :
    (t.rename old new).rows = relab (fun i => if i = old then new else i) t.rows := by
  unfold rename resetSet relab
  apply List.map_congr_left
  intro r _
  split <;> simp_all

theorem rename_wf (t : Tbl α) (old new : Nat) : (t.rename old new).WF := resetSet_wf _

theorem drop_wf {t : Tbl α} (h : t.WF) (l : List Nat) : (t.drop l).WF := by
  intro r hr
  exact h r (List.mem_filter.1 hr).1

end Tbl
end Trackeddy
