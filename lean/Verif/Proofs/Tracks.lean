import Verif.Props.Continuity

/-! Lemmas for C123: two tables that follow the linking rule and share detections. -/
namespace Trackeddy
open Spec Tbl

set_option linter.unusedSectionVars false
variable {α K Pt : Type} [Field K] [LinearOrder K] [IsStrictOrderedRing K]

/-- the row `e` is the end of its track before time `t` -/
def LastAt (rows : List (Row (Int × α))) (t : Int) (e : Row (Int × α)) : Prop :=
  e ∈ rows ∧ e.idx = 0 ∧ e.val.1 < t ∧ ∀ s ∈ rows, s.id = e.id → s.val.1 < t → s.val.1 ≤ e.val.1

theorem keyUnique_eq {rows : List (Row (Int × α))} (h : KeyUnique rows) {r s : Row (Int × α)} (hr : r ∈ rows) (hs : s ∈ rows)
    (h1 : r.id = s.id) (h2 : r.val.1 = s.val.1) (h3 : r.idx = s.idx) : r = s := by
  by_contra hne
  unfold KeyUnique at h
  have hsym : ∀ a b : Row (Int × α), ¬ (a.id = b.id ∧ a.val.1 = b.val.1 ∧ a.idx = b.idx) →
      ¬ (b.id = a.id ∧ b.val.1 = a.val.1 ∧ b.idx = a.idx) := by
    rintro a b hab ⟨x1, x2, x3⟩
    exact hab ⟨x1.symm, x2.symm, x3.symm⟩
  let R : Row (Int × α) → Row (Int × α) → Prop := fun a b => a ≠ b → ¬ (a.id = b.id ∧ a.val.1 = b.val.1 ∧ a.idx = b.idx)
  have k1 : rows.Pairwise R := h.imp (S := R) fun {a b} hab _ => hab
  have k2 : rows.Pairwise (flip R) := h.imp (S := flip R) fun {a b} hab _ => hsym a b hab
  exact List.Pairwise.forall_of_forall_of_flip (R := R) (by intro x _ hx; exact absurd rfl hx) k1 k2 hr hs hne ⟨h1, h2, h3⟩

/-- the part of a table that is known of both tables -/
structure RuleTable (dist : Pt → Pt → K) (pos : α → Pt) (radius : α → K) (P : Int × α → Prop) (rows : List (Row (Int × α))) : Prop where
  follows : FollowsRule dist pos radius rows
  key : KeyUnique rows
  first : HasFirstT rows
  rpos : ∀ r ∈ rows, r.idx = 0 → 0 < radius r.val.2
  apart : ∀ r ∈ rows, ∀ s ∈ rows, r.idx = 0 → s.idx = 0 → r.val.1 = s.val.1 → r.id ≠ s.id → 0 < dist (pos r.val.2) (pos s.val.2)
  far : ∀ r ∈ rows, ∀ s ∈ rows, r.idx = 0 → s.idx = 0 → s.val.1 < r.val.1 → ¬ (P r.val ↔ P s.val) →
    radius r.val.2 ≤ dist (pos r.val.2) (pos s.val.2) * 6371

section
variable {dist : Pt → Pt → K} {pos : α → Pt} {radius : α → K} {P : Int × α → Prop} {rows rows' : List (Row (Int × α))}

theorem RuleTable.rule (h : RuleTable dist pos radius P rows) {r : Row (Int × α)} (hr : r ∈ rows) (h0 : r.idx = 0) :
    ((∃ e, LastAt rows r.val.1 e ∧ dist (pos r.val.2) (pos e.val.2) * 6371 < radius r.val.2) →
      ∃ e, LastAt rows r.val.1 e ∧ e.id = r.id ∧ dist (pos r.val.2) (pos e.val.2) * 6371 < radius r.val.2 ∧
        ∀ e', LastAt rows r.val.1 e' → dist (pos r.val.2) (pos e.val.2) ≤ dist (pos r.val.2) (pos e'.val.2)) ∧
    ((¬ ∃ e, LastAt rows r.val.1 e ∧ dist (pos r.val.2) (pos e.val.2) * 6371 < radius r.val.2) →
      ∀ s ∈ rows, s.val.1 < r.val.1 → s.id ≠ r.id) := by
  by_cases hb : before r.val.1 rows = []
  · have hno : ∀ s ∈ rows, ¬ s.val.1 < r.val.1 := by
      intro s hs hlt
      have : s ∈ before r.val.1 rows := mem_before.2 ⟨hs, hlt⟩
      rw [hb] at this
      exact absurd this (by simp)
    refine ⟨?_, ?_⟩
    · rintro ⟨e, he, -⟩
      exact absurd he.2.2.1 (hno e he.1)
    · intro _ s hs hlt
      exact absurd hlt (hno s hs)
  · obtain ⟨ends, k1, k2, k3⟩ := h.follows r.val.1 ⟨r, hr, rfl⟩ hb
    obtain ⟨k4, k5⟩ := k3 r hr h0 rfl
    have hend : ∀ e, LastAt rows r.val.1 e → ends[e.id]? = some (pos e.val.2) := by
      intro e he
      have hlen : e.id < ends.length := (k1 e.id).1 ⟨e, mem_before.2 ⟨he.1, he.2.2.1⟩, rfl⟩
      rw [List.getElem?_eq_getElem hlen]
      obtain ⟨q, hq, q1, q2, q3, q4⟩ := k2 e.id ends[e.id] (List.getElem?_eq_getElem hlen)
      obtain ⟨hq, q5⟩ := mem_before.1 hq
      have ht : q.val.1 = e.val.1 := le_antisymm (he.2.2.2 q hq q1 q5) (q4 e (mem_before.2 ⟨he.1, he.2.2.1⟩) rfl)
      have : q = e := keyUnique_eq h.key hq he.1 q1 ht (by rw [q2, he.2.1])
      rw [← q3, this]
    have hlast : ∀ (i : Nat) p, ends[i]? = some p → ∃ e, LastAt rows r.val.1 e ∧ e.id = i ∧ pos e.val.2 = p := by
      intro i p hp
      obtain ⟨q, hq, q1, q2, q3, q4⟩ := k2 i p hp
      obtain ⟨hq, q5⟩ := mem_before.1 hq
      exact ⟨q, ⟨hq, q2, q5, fun s hs hid hlt => q4 s (mem_before.2 ⟨hs, hlt⟩) (hid.trans q1)⟩, q1, q3⟩
    refine ⟨?_, ?_⟩
    · rintro ⟨e, he, hd⟩
      obtain ⟨p, p1, p2, p3⟩ := k4 ⟨_, List.mem_of_getElem? (hend e he), hd⟩
      obtain ⟨e', he', hid, rfl⟩ := hlast _ _ p1
      exact ⟨e', he', hid, p3, fun e'' he'' => p2 _ (List.mem_of_getElem? (hend e'' he''))⟩
    · intro hno s hs hlt hid
      have hlen : s.id < ends.length := (k1 s.id).1 ⟨s, mem_before.2 ⟨hs, hlt⟩, rfl⟩
      have := k5 (by
        rintro ⟨p, hp, hd⟩
        obtain ⟨i, hi⟩ := List.getElem?_of_mem hp
        obtain ⟨e, he, -, rfl⟩ := hlast i p hi
        exact hno ⟨e, he, hd⟩)
      omega

/-- an eddy that is not the first of its track is within its radius of the end of that track, and no other end is nearer -/
theorem RuleTable.prev (h : RuleTable dist pos radius P rows) {r s : Row (Int × α)} (hr : r ∈ rows) (h0 : r.idx = 0) (hs : s ∈ rows)
    (hlt : s.val.1 < r.val.1) (hid : s.id = r.id) :
    ∃ e, LastAt rows r.val.1 e ∧ e.id = r.id ∧ dist (pos r.val.2) (pos e.val.2) * 6371 < radius r.val.2 ∧
      ∀ e', LastAt rows r.val.1 e' → dist (pos r.val.2) (pos e.val.2) ≤ dist (pos r.val.2) (pos e'.val.2) := by
  obtain ⟨k1, k2⟩ := h.rule hr h0
  by_cases hx : ∃ e, LastAt rows r.val.1 e ∧ dist (pos r.val.2) (pos e.val.2) * 6371 < radius r.val.2
  · exact k1 hx
  · exact absurd hid (k2 hx s hs hlt)

theorem length_before_lt {rows : List (Row (Int × α))} {r : Row (Int × α)} {t : Int} (hr : r ∈ rows) (hlt : r.val.1 < t) :
    (before r.val.1 rows).length < (before t rows).length := by
  have he : before r.val.1 rows = (before t rows).filter fun q => q.val.1 < r.val.1 := by
    unfold before
    rw [List.filter_filter]
    apply List.filter_congr
    intro q _
    simp only [decide_eq_decide, ← Bool.decide_and]
    constructor
    · intro hq; exact ⟨hq, by omega⟩
    · rintro ⟨hq, -⟩; exact hq
  rw [he]
  apply List.length_filter_lt_length_iff_exists.2
  exact ⟨r, mem_before.2 ⟨hr, hlt⟩, by simp⟩

/-- a track consists of shared detections or of others -/
theorem RuleTable.pure (h : RuleTable dist pos radius P rows) {r s : Row (Int × α)} (hr : r ∈ rows) (hs : s ∈ rows)
    (h0 : r.idx = 0) (h1 : s.idx = 0) (hid : r.id = s.id) : P r.val ↔ P s.val := by
  have main : ∀ n : Nat, ∀ r ∈ rows, ∀ s ∈ rows, r.idx = 0 → s.idx = 0 → r.id = s.id → s.val.1 ≤ r.val.1 →
      (before r.val.1 rows).length = n → (P r.val ↔ P s.val) := by
    intro n
    induction n using Nat.strong_induction_on with
    | _ n ih =>
      intro r hr s hs h0 h1 hid hle hn
      rcases hle.eq_or_lt with heq | hlt
      · rw [keyUnique_eq h.key hr hs hid heq.symm (by rw [h0, h1])]
      · obtain ⟨e, he, e1, e2, -⟩ := h.prev hr h0 hs hlt hid.symm
        have hre : P r.val ↔ P e.val := by
          by_contra hc
          exact absurd e2 (not_lt.2 (h.far r hr e he.1 h0 he.2.1 he.2.2.1 hc))
        rw [hre]
        exact ih _ (by rw [← hn]; exact length_before_lt he.1 he.2.2.1) e he.1 s hs he.2.1 h1 (e1.trans hid)
          (he.2.2.2 s hs (hid.symm.trans e1.symm) hlt) rfl
  rcases le_total s.val.1 r.val.1 with hle | hle
  · exact main _ r hr s hs h0 h1 hid hle rfl
  · exact (main _ s hs r hr h1 h0 hid.symm hle rfl).symm

variable (hsym : ∀ a b, dist a b = dist b a) (htri : ∀ a b c, dist a c ≤ dist a b + dist b c) (hself : ∀ a, dist a a = 0)
include hsym htri hself

theorem dist_nonneg_of (a b : Pt) : 0 ≤ dist a b := by
  have := htri a b a
  rw [hself, hsym b a] at this
  linarith

/-- the ends of different tracks are at different places -/
theorem RuleTable.ends_apart (h : RuleTable dist pos radius P rows) {t : Int} {e f : Row (Int × α)} (he : LastAt rows t e) (hf : LastAt rows t f)
    (hid : e.id ≠ f.id) : 0 < dist (pos e.val.2) (pos f.val.2) := by
  have main : ∀ n : Nat, ∀ t e f, LastAt rows t e → LastAt rows t f → e.id ≠ f.id → f.val.1 ≤ e.val.1 →
      (before t rows).length = n → 0 < dist (pos e.val.2) (pos f.val.2) := by
    intro n
    induction n using Nat.strong_induction_on with
    | _ n ih =>
      intro t e f he hf hid hle hn
      rcases hle.eq_or_lt with heq | hlt
      · exact h.apart e he.1 f hf.1 he.2.1 hf.2.1 heq.symm hid
      · by_contra hc
        have h0 : dist (pos e.val.2) (pos f.val.2) = 0 :=
          le_antisymm (not_lt.1 hc) (dist_nonneg_of hsym htri hself _ _)
        have hfl : LastAt rows e.val.1 f :=
          ⟨hf.1, hf.2.1, hlt, fun s hs hsid hslt => hf.2.2.2 s hs hsid (by have := he.2.2.1; omega)⟩
        obtain ⟨g, hg, g1, g2, g3⟩ := (h.rule he.1 he.2.1).1 ⟨f, hfl, by rw [h0, zero_mul]; exact h.rpos e he.1 he.2.1⟩
        have hg0 : dist (pos g.val.2) (pos f.val.2) ≤ 0 := by
          have t1 := htri (pos g.val.2) (pos e.val.2) (pos f.val.2)
          have t2 := g3 f hfl
          rw [hsym (pos g.val.2) (pos e.val.2)] at t1
          linarith
        have hgf : g.id ≠ f.id := by rw [g1]; exact hid
        have hlen : (before e.val.1 rows).length < n := by rw [← hn]; exact length_before_lt he.1 he.2.2.1
        rcases le_total f.val.1 g.val.1 with hx | hx
        · exact absurd (ih _ hlen _ g f hg hfl hgf hx rfl) (not_lt.2 hg0)
        · have := ih _ hlen _ f g hfl hg hgf.symm hx rfl
          rw [hsym] at this
          exact absurd this (not_lt.2 hg0)
  rcases le_total f.val.1 e.val.1 with hle | hle
  · exact main _ t e f he hf hid hle rfl
  · rw [hsym]
    exact main _ t f e hf he hid.symm hle rfl

omit hsym htri in
theorem RuleTable.val_id (h : RuleTable dist pos radius P rows) {r s : Row (Int × α)} (hr : r ∈ rows) (hs : s ∈ rows)
    (h0 : r.idx = 0) (h1 : s.idx = 0) (hv : r.val = s.val) : r.id = s.id := by
  by_contra hc
  have := h.apart r hr s hs h0 h1 (by rw [hv]) hc
  rw [hv, hself] at this
  exact lt_irrefl _ this

/-- one direction of the step of the induction: what is linked in the first table is linked in the second -/
theorem RuleTable.linked (h : RuleTable dist pos radius P rows) (h' : RuleTable dist pos radius P rows')
    (hsh : ∀ r ∈ rows, r.idx = 0 → P r.val → ∃ r' ∈ rows', r'.idx = 0 ∧ r'.val = r.val)
    (hsh' : ∀ r' ∈ rows', r'.idx = 0 → P r'.val → ∃ r ∈ rows, r.idx = 0 ∧ r.val = r'.val)
    (htie : ∀ r ∈ rows, ∀ e ∈ rows, ∀ f ∈ rows, r.idx = 0 → e.idx = 0 → f.idx = 0 → P r.val → P e.val → P f.val →
      e.val.1 < r.val.1 → f.val.1 < r.val.1 → dist (pos r.val.2) (pos e.val.2) * 6371 < radius r.val.2 →
      dist (pos r.val.2) (pos e.val.2) = dist (pos r.val.2) (pos f.val.2) → dist (pos e.val.2) (pos f.val.2) = 0)
    {t : Int}
    (ih : ∀ r ∈ rows, ∀ s ∈ rows, ∀ r' ∈ rows', ∀ s' ∈ rows', r.idx = 0 → s.idx = 0 → r'.idx = 0 → s'.idx = 0 → P r.val → P s.val →
      r'.val = r.val → s'.val = s.val → r.val.1 < t → s.val.1 < t → (r'.id = s'.id ↔ r.id = s.id))
    {r s r' s' : Row (Int × α)} (hr : r ∈ rows) (hs : s ∈ rows) (hr' : r' ∈ rows') (hs' : s' ∈ rows')
    (r0 : r.idx = 0) (s0 : s.idx = 0) (r0' : r'.idx = 0) (s0' : s'.idx = 0) (hrP : P r.val) (hsP : P s.val) (hrv : r'.val = r.val)
    (hsv : s'.val = s.val) (hrt : r.val.1 = t) (hst : s.val.1 < t) (hid : r.id = s.id) : r'.id = s'.id := by
  subst hrt
  obtain ⟨e, he, e1, e2, e3⟩ := h.prev hr r0 hs hst hid.symm
  have heP : P e.val := (h.pure he.1 hr he.2.1 r0 e1).2 hrP
  obtain ⟨e', he'm, e0', ev'⟩ := hsh e he.1 he.2.1 heP
  have het : e'.val.1 = e.val.1 := by rw [ev']
  have he' : LastAt rows' r'.val.1 e' := by
    rw [hrv]
    refine ⟨he'm, e0', by rw [het]; exact he.2.2.1, ?_⟩
    intro u hu uid ult
    obtain ⟨w, hw, w1, w2, w3⟩ := h'.first u hu
    have hwP : P w.val := (h'.pure hw he'm w2 e0' (w1.trans uid)).2 (by rw [ev']; exact heP)
    obtain ⟨v, hv, v0, vv⟩ := hsh' w hw w2 hwP
    have hvt : v.val.1 = u.val.1 := by rw [vv, w3]
    have hvid : v.id = e.id := (ih v hv e he.1 w hw e' he'm v0 he.2.1 w2 e0' (by rw [vv]; exact hwP) heP vv.symm ev'
      (by rw [hvt]; exact ult) he.2.2.1).1 (w1.trans uid)
    rw [← hvt, het]
    exact he.2.2.2 v hv hvid (by rw [hvt]; exact ult)
  obtain ⟨f', hf', f1, f2, f3⟩ := (h'.rule hr' r0').1 ⟨e', he', by rw [hrv, ev']; exact e2⟩
  have hfP' : P f'.val := (h'.pure hf'.1 hr' hf'.2.1 r0' f1).2 (by rw [hrv]; exact hrP)
  obtain ⟨f, hfm, f0, fv⟩ := hsh' f' hf'.1 hf'.2.1 hfP'
  have hft : f.val.1 = f'.val.1 := by rw [fv]
  have hfP : P f.val := by rw [fv]; exact hfP'
  have hflt : f.val.1 < r.val.1 := by rw [hft, ← hrv]; exact hf'.2.2.1
  have hf : LastAt rows r.val.1 f := by
    refine ⟨hfm, f0, hflt, ?_⟩
    intro u hu uid ult
    obtain ⟨w, hw, w1, w2, w3⟩ := h.first u hu
    have hwP : P w.val := (h.pure hw hfm w2 f0 (w1.trans uid)).2 hfP
    obtain ⟨v, hv, v0, vv⟩ := hsh w hw w2 hwP
    have hvt : v.val.1 = u.val.1 := by rw [vv, w3]
    have hvid : v.id = f'.id := (ih w hw f hfm v hv f' hf'.1 w2 f0 v0 hf'.2.1 hwP hfP vv fv.symm
      (by rw [w3]; exact ult) hflt).2 (w1.trans uid)
    rw [← hvt, hft]
    exact hf'.2.2.2 v hv hvid (by rw [hvt, hrv]; exact ult)
  have hle : dist (pos r.val.2) (pos f.val.2) ≤ dist (pos r.val.2) (pos e.val.2) := by
    have := f3 e' he'
    rw [hrv, ev', ← fv] at this
    exact this
  have hef : e.id = f.id := by
    by_contra hc
    have h1 := h.ends_apart hsym htri hself he hf hc
    have h2 := htie r hr e he.1 f hfm r0 he.2.1 f0 hrP heP hfP he.2.2.1 hflt e2 (le_antisymm (e3 f hf) hle)
    rw [h2] at h1
    exact lt_irrefl _ h1
  have k1 : e'.id = f'.id := (ih e he.1 f hfm e' he'm f' hf'.1 he.2.1 f0 e0' hf'.2.1 heP hfP ev' fv.symm he.2.2.1 hflt).2 hef
  have k2 : s'.id = e'.id := (ih s hs e he.1 s' hs' e' he'm s0 he.2.1 s0' e0' hsP heP hsv ev' hst he.2.2.1).2 (hid.symm.trans e1.symm)
  rw [k2, k1, f1]

/-- Two tables that share the detections with the property `P` group them into the same tracks. -/
theorem RuleTable.same (h : RuleTable dist pos radius P rows) (h' : RuleTable dist pos radius P rows')
    (hsh : ∀ r ∈ rows, r.idx = 0 → P r.val → ∃ r' ∈ rows', r'.idx = 0 ∧ r'.val = r.val)
    (hsh' : ∀ r' ∈ rows', r'.idx = 0 → P r'.val → ∃ r ∈ rows, r.idx = 0 ∧ r.val = r'.val)
    (htie : ∀ r ∈ rows, ∀ e ∈ rows, ∀ f ∈ rows, r.idx = 0 → e.idx = 0 → f.idx = 0 → P r.val → P e.val → P f.val →
      e.val.1 < r.val.1 → f.val.1 < r.val.1 → dist (pos r.val.2) (pos e.val.2) * 6371 < radius r.val.2 →
      dist (pos r.val.2) (pos e.val.2) = dist (pos r.val.2) (pos f.val.2) → dist (pos e.val.2) (pos f.val.2) = 0)
    {r s r' s' : Row (Int × α)} (hr : r ∈ rows) (hs : s ∈ rows) (hr' : r' ∈ rows') (hs' : s' ∈ rows')
    (r0 : r.idx = 0) (s0 : s.idx = 0) (r0' : r'.idx = 0) (s0' : s'.idx = 0) (hrP : P r.val) (hsP : P s.val) (hrv : r'.val = r.val)
    (hsv : s'.val = s.val) : r'.id = s'.id ↔ r.id = s.id := by
  have htie' : ∀ r ∈ rows', ∀ e ∈ rows', ∀ f ∈ rows', r.idx = 0 → e.idx = 0 → f.idx = 0 → P r.val → P e.val → P f.val →
      e.val.1 < r.val.1 → f.val.1 < r.val.1 → dist (pos r.val.2) (pos e.val.2) * 6371 < radius r.val.2 →
      dist (pos r.val.2) (pos e.val.2) = dist (pos r.val.2) (pos f.val.2) → dist (pos e.val.2) (pos f.val.2) = 0 := by
    intro r hr e he f hf r0 e0 f0 hrP heP hfP het hft hd heq
    obtain ⟨r1, hr1, r10, r1v⟩ := hsh' r hr r0 hrP
    obtain ⟨e1, he1, e10, e1v⟩ := hsh' e he e0 heP
    obtain ⟨f1, hf1, f10, f1v⟩ := hsh' f hf f0 hfP
    have := htie r1 hr1 e1 he1 f1 hf1 r10 e10 f10 (by rw [r1v]; exact hrP) (by rw [e1v]; exact heP) (by rw [f1v]; exact hfP)
    rw [r1v, e1v, f1v] at this
    exact this het hft hd heq
  have main : ∀ n : Nat, ∀ t, (before t rows).length = n → ∀ r ∈ rows, ∀ s ∈ rows, ∀ r' ∈ rows', ∀ s' ∈ rows', r.idx = 0 → s.idx = 0 →
      r'.idx = 0 → s'.idx = 0 → P r.val → P s.val → r'.val = r.val → s'.val = s.val → r.val.1 < t → s.val.1 < t →
      (r'.id = s'.id ↔ r.id = s.id) := by
    intro n
    induction n using Nat.strong_induction_on with
    | _ n ih0 =>
      intro t hn
      have step : ∀ r ∈ rows, ∀ s ∈ rows, ∀ r' ∈ rows', ∀ s' ∈ rows', r.idx = 0 → s.idx = 0 →
          r'.idx = 0 → s'.idx = 0 → P r.val → P s.val → r'.val = r.val → s'.val = s.val → r.val.1 < t → s.val.1 ≤ r.val.1 →
          (r'.id = s'.id ↔ r.id = s.id) := by
        intro r hr s hs r' hr' s' hs' r0 s0 r0' s0' hrP hsP hrv hsv hrt hle
        have ih := ih0 _ (by rw [← hn]; exact length_before_lt hr hrt) r.val.1 rfl
        rcases hle.eq_or_lt with heq | hlt
        · constructor
          · intro hid
            have : r' = s' := keyUnique_eq h'.key hr' hs' hid (by rw [hrv, hsv, heq]) (by rw [r0', s0'])
            exact h.val_id hself hr hs r0 s0 (by rw [← hrv, this, hsv])
          · intro hid
            have : r = s := keyUnique_eq h.key hr hs hid heq.symm (by rw [r0, s0])
            exact h'.val_id hself hr' hs' r0' s0' (by rw [hrv, this, hsv])
        · constructor
          · refine h'.linked hsym htri hself h hsh' hsh htie' (t := r.val.1) ?_ hr' hs' hr hs r0' s0' r0 s0 (by rw [hrv]; exact hrP)
              (by rw [hsv]; exact hsP) hrv.symm hsv.symm (by rw [hrv]) (by rw [hsv]; exact hlt)
            intro a ha b hb a' ha' b' hb' a0 b0 a0' b0' haP hbP hav hbv hat hbt
            exact (ih a' ha' b' hb' a ha b hb a0' b0' a0 b0 (by rw [hav]; exact haP) (by rw [hbv]; exact hbP) hav.symm hbv.symm
              (by rw [hav]; exact hat) (by rw [hbv]; exact hbt)).symm
          · exact h.linked hsym htri hself h' hsh hsh' htie (t := r.val.1) ih hr hs hr' hs' r0 s0 r0' s0' hrP hsP hrv hsv rfl hlt
      intro r hr s hs r' hr' s' hs' r0 s0 r0' s0' hrP hsP hrv hsv hrt hst
      rcases le_total s.val.1 r.val.1 with hle | hle
      · exact step r hr s hs r' hr' s' hs' r0 s0 r0' s0' hrP hsP hrv hsv hrt hle
      · have := step s hs r hr s' hs' r' hr' s0 r0 s0' r0' hsP hrP hsv hrv hst hle
        rw [eq_comm, this, eq_comm]
  exact main _ (max r.val.1 s.val.1 + 1) rfl r hr s hs r' hr' s' hs' r0 s0 r0' s0' hrP hsP hrv hsv (by omega) (by omega)

end
end Trackeddy
