import Verif.Spec.Memory
import Mathlib.Algebra.Order.Group.Multiset
import Mathlib.Tactic.Abel

/-!
Lemmas on the memory management of cntr.c.
-/
namespace Trackeddy.Mem

/-- the references in a list of pointers -/
def held (ps : List (Option Nat)) : Multiset Nat := ↑(ps.filterMap id)

@[simp] theorem held_nil : held [] = 0 := rfl
@[simp] theorem held_none (ps : List (Option Nat)) : held (none :: ps) = held ps := rfl
@[simp] theorem held_some (b : Nat) (ps : List (Option Nat)) : held (some b :: ps) = b ::ₘ held ps := rfl

theorem held_map_some (l : List Nat) : held (l.map some) = ↑l := by
  induction l with
  | nil => rfl
  | cons a l ih => rw [List.map_cons, held_some, ih]; rfl

theorem releaseAll_ok (ps : List (Option Nat)) : ∀ (s : St) (R : Multiset Nat), s.refs = held ps + R →
    releaseAll ps s = .ok { s with refs := R } := by
  induction ps with
  | nil =>
    intro s R h
    rw [held_nil, zero_add] at h
    subst h
    rfl
  | cons p ps ih =>
    intro s R h
    cases p with
    | none =>
      rw [held_none] at h
      simp only [releaseAll, release, bind, Except.bind]
      exact ih s R h
    | some b =>
      rw [held_some, Multiset.cons_add] at h
      have hb : b ∈ s.refs := by rw [h]; exact Multiset.mem_cons_self _ _
      simp only [releaseAll, release, hb, if_true, bind, Except.bind]
      rw [ih { s with refs := s.refs.erase b } R (by simp only; rw [h, Multiset.erase_cons_head])]

theorem release_ok {b : Nat} {s : St} {R : Multiset Nat} (h : s.refs = b ::ₘ R) : release (some b) s = .ok { s with refs := R } := by
  have hb : b ∈ s.refs := by rw [h]; exact Multiset.mem_cons_self _ _
  simp only [release, hb, if_true]
  rw [h, Multiset.erase_cons_head]

theorem access_ok {b : Nat} {s : St} (h : b ∈ s.refs) : access (some b) s = .ok () := by
  simp [access, h]

theorem alloc_fails {F : Failures} {p : Place} {s : St} (h : F s.next p = true) :
    alloc F p s = (none, { s with next := s.next + 1 }) := by
  simp [alloc, h]

theorem alloc_works {F : Failures} {p : Place} {s : St} (h : F s.next p = false) :
    alloc F p s = (some s.next, { s with next := s.next + 1, refs := s.next ::ₘ s.refs }) := by
  simp [alloc, h]

theorem allocPy_fails {F : Failures} {p : Place} {s : St} (h : F s.next p = true) :
    allocPy F p s = (none, { s with next := s.next + 1, err := some .memoryError }) := by
  simp [allocPy, alloc_fails h]

theorem allocPy_works {F : Failures} {p : Place} {s : St} (h : F s.next p = false) :
    allocPy F p s = (some s.next, { s with next := s.next + 1, refs := s.next ::ₘ s.refs }) := by
  simp [allocPy, alloc_works h]

/-- what an allocation does to the references -/
theorem alloc_spec (F : Failures) (p : Place) (s : St) : ∃ q s', alloc F p s = (q, s') ∧ s'.refs = held [q] + s.refs ∧ s'.err = s.err ∧
    (q = none ↔ F s.next p = true) ∧ s'.next = s.next + 1 := by
  cases h : F s.next p with
  | true => exact ⟨none, _, alloc_fails h, by simp, rfl, by simp, rfl⟩
  | false => exact ⟨_, _, alloc_works h, by simp, rfl, by simp, rfl⟩

theorem reorderMem_ok {F : Failures} {i : Nat} (nsegs : Nat) (s : St)
    (h0 : ∀ n, F n (.i0 i) = false) (h1 : ∀ n, F n (.i1 i) = false) (h2 : ∀ n, F n (.subp i) = false) :
    ∃ s', reorderMem F i nsegs s = .ok s' ∧ s'.refs = s.refs ∧ s'.err = s.err ∧ s.next ≤ s'.next := by
  unfold reorderMem
  rw [alloc_works (h0 _)]
  simp only
  rw [alloc_works (h1 _)]
  simp only
  split
  · rw [releaseAll_ok _ _ s.refs]
    · exact ⟨_, rfl, rfl, rfl, by simp only; omega⟩
    · simp [Multiset.cons_swap]
  · rw [access_ok (by simp), access_ok (by simp)]
    simp only [bind, Except.bind]
    rw [alloc_works (h2 _)]
    simp only
    rw [access_ok (by simp)]
    simp only
    rw [releaseAll_ok _ _ s.refs]
    · exact ⟨_, rfl, rfl, rfl, by simp only; omega⟩
    · simp only [held_some, held_nil, ← Multiset.singleton_add]
      abel

theorem buildLoop_ok {F : Failures} (hF : ∀ n p, Critical p → F n p = false) (lb : Nat) (segs : List Nat) :
    ∀ (i : Nat) (kv : Option Nat) (items : List Nat) (s : St) (R : Multiset Nat), (i = 0 → kv = none) → s.refs = lb ::ₘ ↑items + R →
    ∃ r s', buildLoop F (some lb) i segs kv items s = .ok (r, s') ∧
      (∀ items', r = some items' → s'.refs = lb ::ₘ ↑items' + R ∧ s'.err = s.err ∧ items'.length = items.length + 2 * segs.length) ∧
      (r = none → s'.refs = R ∧ s'.err = some .memoryError ∧ ∃ n p, F n p = true) := by
  induction segs with
  | nil =>
    intro i kv items s R _ hs
    refine ⟨some items, s, by rw [buildLoop], ?_, by simp⟩
    intro items' h
    injection h with h
    subst h
    exact ⟨hs, rfl, rfl⟩
  | cons nsegs segs ih =>
    intro i kv items s R hi hs
    have hrel : ∀ n e, releaseList (some lb) items ⟨n, s.refs, e⟩ = .ok ⟨n, R, e⟩ := by
      intro n e
      unfold releaseList
      simp only
      rw [release_ok (s := ⟨n, s.refs, e⟩) (R := ↑items + R) (by simp only; rw [hs, Multiset.cons_add])]
      simp only [bind, Except.bind]
      rw [releaseAll_ok _ _ R (by simp only; rw [held_map_some])]
    rw [buildLoop]
    simp only
    cases hv : F s.next (.verts i) with
    | true =>
      have h0 : i = 0 := by
        rcases i with _ | i
        · rfl
        · exact absurd hv (by rw [hF _ (.verts (i + 1)) trivial]; simp)
      rw [allocPy_fails hv, hi h0]
      simp only
      rw [releaseAll_ok _ _ s.refs (by simp)]
      simp only [bind, Except.bind]
      rw [hrel]
      exact ⟨none, _, rfl, by simp, fun _ => ⟨rfl, rfl, _, _, hv⟩⟩
    | false =>
      rw [allocPy_works hv]
      simp only
      cases hk : F (s.next + 1) (.codes i) with
      | true =>
        rw [allocPy_fails hk]
        simp only
        rw [releaseAll_ok _ _ s.refs (by simp)]
        simp only [bind, Except.bind]
        rw [hrel]
        exact ⟨none, _, rfl, by simp, fun _ => ⟨rfl, rfl, _, _, hk⟩⟩
      | false =>
        rw [allocPy_works hk]
        simp only
        obtain ⟨t, ht, hr, he, -⟩ := reorderMem_ok (F := F) (i := i) nsegs
          { next := s.next + 1 + 1, refs := (s.next + 1) ::ₘ s.next ::ₘ s.refs, err := s.err }
          (fun n => hF n _ trivial) (fun n => hF n _ trivial) (fun n => hF n _ trivial)
        rw [ht]
        simp only [bind, Except.bind]
        simp only at hr he
        have hrr : t.refs = held [some s.next, some (s.next + 1)] + s.refs := by
          rw [hr]
          simp only [held_some, held_nil, ← Multiset.singleton_add]
          abel
        cases hsv : F t.next (.shrinkVerts i) with
        | true =>
          simp only [if_true]
          rw [releaseAll_ok _ _ s.refs (by exact hrr)]
          simp only
          rw [hrel]
          exact ⟨none, _, rfl, by simp, fun _ => ⟨rfl, rfl, _, _, hsv⟩⟩
        | false =>
          simp only [Bool.false_eq_true, if_false]
          cases hsk : F (t.next + 1) (.shrinkCodes i) with
          | true =>
            simp only [if_true]
            rw [releaseAll_ok _ _ s.refs (by exact hrr)]
            simp only
            rw [hrel]
            exact ⟨none, _, rfl, by simp, fun _ => ⟨rfl, rfl, _, _, hsk⟩⟩
          | false =>
            simp only [Bool.false_eq_true, if_false]
            rw [access_ok (by simp only; rw [hr, hs]; simp)]
            simp only
            obtain ⟨r, s', h1, h2, h3⟩ := ih (i + 1) (some (s.next + 1)) (items ++ [s.next, s.next + 1])
              { t with next := t.next + 1 + 1 } R (by simp) (by
                simp only
                rw [hr, hs, ← Multiset.coe_add]
                simp only [← Multiset.singleton_add, ← Multiset.cons_coe, Multiset.coe_nil]
                abel)
            refine ⟨r, s', h1, fun items' hit => ?_, h3⟩
            obtain ⟨g1, g2, g3⟩ := h2 items' hit
            refine ⟨g1, by rw [g2]; exact he, ?_⟩
            rw [g3]
            simp
            omega

/-- the result of `build_cntr_list_v2` as references -/
def heldList : Option (Nat × List Nat) → Multiset Nat
  | some (l, items) => l ::ₘ ↑items
  | none => 0

theorem buildList_ok {F : Failures} (hF : ∀ n p, Critical p → F n p = false) (segs : List Nat) (s : St) :
    ∃ r s', buildList F segs s = .ok (r, s') ∧ s'.refs = heldList r + s.refs ∧
      (∀ l items, r = some (l, items) → s'.err = s.err ∧ items.length = 2 * segs.length) ∧
      (r = none → s'.err = some .memoryError ∧ ∃ n p, F n p = true) := by
  unfold buildList
  rw [allocPy_works (hF _ .list trivial)]
  simp only
  obtain ⟨r, s', h1, h2, h3⟩ := buildLoop_ok hF s.next segs 0 none []
    { next := s.next + 1, refs := s.next ::ₘ s.refs, err := s.err } s.refs (fun _ => rfl) (by simp)
  rw [h1]
  simp only [bind, Except.bind, pure, Except.pure]
  cases r with
  | none =>
    obtain ⟨g1, g2, g3⟩ := h3 rfl
    exact ⟨none, s', rfl, by simp [heldList, g1], by simp, fun _ => ⟨g2, g3⟩⟩
  | some items =>
    obtain ⟨g1, g2, g3⟩ := h2 items rfl
    refine ⟨some (s.next, items), s', rfl, by rw [g1]; rfl, ?_, by simp⟩
    intro l it h
    injection h with h
    injection h with ha hb
    subst hb
    exact ⟨g2, by simpa using g3⟩

/-- the references an object holds, with the one to itself -/
def owned (o : Obj) : Multiset Nat :=
  held [o.own.saddle, o.own.reg, o.own.data, o.site] + held [o.xpa, o.ypa, o.zpa, o.mpa, some o.self]

theorem access_held {p : Option Nat} {s : St} (h : p.isSome) (hs : held [p] ≤ s.refs) : access p s = .ok () := by
  obtain ⟨b, rfl⟩ := Option.isSome_iff_exists.1 h
  exact access_ok (Multiset.mem_of_le hs (by simp))

theorem dealloc_ok {o : Obj} {s : St} {R : Multiset Nat} (h : o.site.isSome) (hs : s.refs = owned o + R) :
    dealloc o s = .ok { s with refs := R } := by
  obtain ⟨b, hb⟩ := Option.isSome_iff_exists.1 h
  unfold dealloc cntrDel
  rw [hb, access_ok (by rw [hs]; unfold owned; rw [hb]; cases o.own.saddle <;> cases o.own.reg <;> cases o.own.data <;> simp)]
  simp only [bind, Except.bind]
  rw [releaseAll_ok _ _ (held [o.xpa, o.ypa, o.zpa, o.mpa, some o.self] + R) (by rw [hs]; unfold owned; rw [hb, add_assoc])]
  simp only
  rw [releaseAll_ok _ _ R rfl]

/-- an object that can be used -/
def Whole (o : Obj) : Prop :=
  o.site.isSome ∧ o.own.data.isSome ∧ o.own.saddle.isSome ∧ o.xpa.isSome ∧ o.ypa.isSome ∧ o.zpa.isSome

theorem traceMem_ok {F : Failures} (hF : ∀ n p, Critical p → F n p = false) {o : Obj} (ho : Whole o) (segs : List Nat) (s : St)
    {R : Multiset Nat} (hs : s.refs = owned o + R) :
    ∃ r s', traceMem F o segs s = .ok (r, s') ∧ s'.refs = heldList r + s.refs ∧
      (∀ l items, r = some (l, items) → s'.err = s.err ∧ items.length = 2 * segs.length) ∧
      (r = none → (s'.err = s.err ∨ s'.err = some .memoryError) ∧ ∃ n p, F n p = true) := by
  obtain ⟨h1, h2, h3, h4, h5, h6⟩ := ho
  obtain ⟨b1, e1⟩ := Option.isSome_iff_exists.1 h1
  obtain ⟨b2, e2⟩ := Option.isSome_iff_exists.1 h2
  obtain ⟨b3, e3⟩ := Option.isSome_iff_exists.1 h3
  obtain ⟨b4, e4⟩ := Option.isSome_iff_exists.1 h4
  obtain ⟨b5, e5⟩ := Option.isSome_iff_exists.1 h5
  obtain ⟨b6, e6⟩ := Option.isSome_iff_exists.1 h6
  unfold owned at hs
  rw [e1, e2, e3, e4, e5, e6] at hs
  have hm : b1 ∈ s.refs ∧ b2 ∈ s.refs ∧ b3 ∈ s.refs ∧ b4 ∈ s.refs ∧ b5 ∈ s.refs ∧ b6 ∈ s.refs := by
    rw [hs]
    cases o.own.reg <;> simp
  obtain ⟨m1, m2, m3, m4, m5, m6⟩ := hm
  unfold traceMem
  rw [e1, e2, e3, e4, e5, e6, access_ok m1, access_ok m2, access_ok m3, access_ok m4, access_ok m5, access_ok m6]
  simp only [bind, Except.bind]
  obtain ⟨xp, s1, a1, r1, c1, n1, -⟩ := alloc_spec F .xp s
  rw [a1]
  simp only
  obtain ⟨yp, s2, a2, r2, c2, n2, -⟩ := alloc_spec F .yp s1
  rw [a2]
  simp only
  obtain ⟨kp, s3, a3, r3, c3, n3, -⟩ := alloc_spec F .kp s2
  rw [a3]
  simp only
  obtain ⟨np, s4, a4, r4, c4, n4, -⟩ := alloc_spec F .nseg s3
  rw [a4]
  simp only
  have hr : s4.refs = held [xp, yp, kp, np] + s.refs := by
    rw [r4, r3, r2, r1]
    cases xp <;> cases yp <;> cases kp <;> cases np <;> simp only [held_some, held_none, held_nil, ← Multiset.singleton_add] <;> abel
  have he : s4.err = s.err := by rw [c4, c3, c2, c1]
  split
  · rename_i hn
    rw [releaseAll_ok _ _ _ hr]
    refine ⟨none, _, rfl, by simp [heldList], by simp, fun _ => ⟨Or.inl he, ?_⟩⟩
    simp only [Option.isNone_iff_eq_none] at hn
    rcases hn with h | h | h | h
    · exact ⟨_, _, n1.1 h⟩
    · exact ⟨_, _, n2.1 h⟩
    · exact ⟨_, _, n3.1 h⟩
    · exact ⟨_, _, n4.1 h⟩
  · rename_i hn
    simp only [Option.isNone_iff_eq_none, not_or, ← Option.isSome_iff_ne_none] at hn
    obtain ⟨k1, k2, k3, k4⟩ := hn
    obtain ⟨x1, rfl⟩ := Option.isSome_iff_exists.1 k1
    obtain ⟨x2, rfl⟩ := Option.isSome_iff_exists.1 k2
    obtain ⟨x3, rfl⟩ := Option.isSome_iff_exists.1 k3
    obtain ⟨x4, rfl⟩ := Option.isSome_iff_exists.1 k4
    rw [access_ok (by rw [hr]; simp), access_ok (by rw [hr]; simp), access_ok (by rw [hr]; simp), access_ok (by rw [hr]; simp)]
    simp only
    obtain ⟨r, s', g1, g2, g3, g4⟩ := buildList_ok hF segs s4
    rw [g1]
    simp only
    rw [releaseAll_ok _ _ (heldList r + s.refs) (by rw [g2, hr]; abel)]
    refine ⟨r, _, rfl, rfl, ?_, ?_⟩
    · intro l items h
      obtain ⟨q1, q2⟩ := g3 l items h
      exact ⟨by rw [← he]; exact q1, q2⟩
    · intro h
      obtain ⟨q1, q2⟩ := g4 h
      exact ⟨Or.inr q1, q2⟩

theorem convert_spec (F : Failures) (p : Place) (a : Arg) (s : St) : ∃ q s', convert F p a s = (q, s') ∧ s'.refs = held [q] + s.refs ∧
    (q = none ↔ a = .unfit ∨ a = .copy ∧ F s.next p = true) := by
  cases a with
  | same b => exact ⟨_, _, rfl, by simp, by simp⟩
  | unfit => exact ⟨_, _, rfl, by simp, by simp⟩
  | copy =>
    cases h : F s.next p with
    | true => exact ⟨_, _, allocPy_fails h, by simp, by simp⟩
    | false => exact ⟨_, _, allocPy_works h, by simp, by simp⟩

theorem siteInit_ok {F : Failures} (hF : ∀ n p, Critical p → F n p = false) (masked : Bool) {b : Nat} {s : St} (hb : b ∈ s.refs)
    (r : SiteRec) : ∃ d a g s', siteInit F masked (some b) r s = .ok (true, ⟨some d, some a, g⟩, s') ∧
      s'.refs = held [some a, g, some d] + s.refs ∧ s'.err = s.err := by
  unfold siteInit
  rw [access_ok hb]
  simp only [bind, Except.bind]
  rw [alloc_works (hF _ .data trivial)]
  simp only
  rw [alloc_works (hF _ .saddle trivial)]
  simp only
  cases masked with
  | false =>
    refine ⟨_, _, _, _, rfl, ?_, rfl⟩
    simp
  | true =>
    simp only [if_true]
    rw [alloc_works (hF _ .reg trivial)]
    refine ⟨_, _, _, _, rfl, ?_, rfl⟩
    simp only [held_some, held_nil, ← Multiset.singleton_add]
    abel

/-- the arguments are accepted: all fit, all copies succeed, the shapes agree -/
theorem construct_ok {F : Failures} (hF : ∀ n p, Critical p → F n p = false) (a : Args) (s : St) :
    ∃ r s', construct F a s = .ok (r, s') ∧
      (∀ o, r = some o → Whole o ∧ s'.refs = owned o + s.refs ∧ a.sameShape = true ∧ a.x.Fits ∧ a.y.Fits ∧ a.z.Fits ∧ ∀ m, a.mask = some m → m.Fits) ∧
      (r = none → s'.refs = s.refs ∧
        ((s'.err = some .memoryError ∧ F s.next .object = true) ∨ (s'.err = some .valueError ∧
          ((∃ n p, F n p = true) ∨ ¬ (a.sameShape = true ∧ a.x.Fits ∧ a.y.Fits ∧ a.z.Fits ∧ ∀ m, a.mask = some m → m.Fits))))) ∧
      ((a.x = .copy ∧ ∀ n, F n .xArray = true) ∨ (a.y = .copy ∧ ∀ n, F n .yArray = true) ∨ (a.z = .copy ∧ ∀ n, F n .zArray = true) → r = none) := by
  unfold construct cntrNew
  cases ho : F s.next .object with
  | true =>
    rw [allocPy_fails ho]
    exact ⟨none, _, rfl, by simp, fun _ => ⟨rfl, Or.inl ⟨rfl, rfl⟩⟩, fun _ => rfl⟩
  | false =>
    rw [allocPy_works ho]
    simp only
    rw [alloc_works (hF _ .site trivial)]
    simp only [bind, Except.bind]
    unfold objInit
    obtain ⟨x, s1, a1, r1, q1⟩ := convert_spec F .xArray a.x
      { next := s.next + 1 + 1, refs := (s.next + 1) ::ₘ s.next ::ₘ s.refs, err := s.err }
    rw [a1]
    simp only
    obtain ⟨y, s2, a2, r2, q2⟩ := convert_spec F .yArray a.y s1
    rw [a2]
    simp only
    obtain ⟨z, s3, a3, r3, q3⟩ := convert_spec F .zArray a.z s2
    rw [a3]
    simp only
    obtain ⟨m, s4, a4, r4, q4⟩ : ∃ m s4, convertMask F a.mask s3 = (m, s4) ∧ s4.refs = held [m] + s3.refs ∧
        ((a.mask.isSome ∧ m = none) → ∃ g, a.mask = some g ∧ (g = .unfit ∨ g = .copy ∧ F s3.next .maskArray = true)) ∧
        (m ≠ none → ∀ g, a.mask = some g → g.Fits) := by
      cases a.mask with
      | none => exact ⟨none, s3, rfl, by simp, by simp, by simp⟩
      | some g =>
        obtain ⟨m, s4, a4, r4, q4⟩ := convert_spec F .maskArray g s3
        refine ⟨m, s4, a4, r4, fun h => ⟨g, rfl, q4.1 h.2⟩, fun h g' hg => ?_⟩
        injection hg with hg
        subst hg
        cases hg' : g with
        | unfit => exact absurd (q4.2 (Or.inl hg')) h
        | _ => trivial
    obtain ⟨q4, q5⟩ := q4
    rw [a4]
    simp only
    have hr : s4.refs = held [x, y, z, m] + ((s.next + 1) ::ₘ s.next ::ₘ s.refs) := by
      rw [r4, r3, r2, r1]
      cases x <;> cases y <;> cases z <;> cases m <;> simp only [held_some, held_none, held_nil, ← Multiset.singleton_add] <;> abel
    have hfit : ∀ (g : Arg) (q : Option Nat) (c : Prop), (q = none ↔ g = .unfit ∨ c) → q ≠ none → g.Fits := by
      intro g q c h hq
      cases hg : g with
      | unfit => exact absurd (h.2 (Or.inl hg)) hq
      | _ => trivial
    have hnew : ∀ (own : SiteRec) t, t.refs = (s.next + 1) ::ₘ s.next ::ₘ s.refs → own = {} →
        dealloc ⟨s.next, some (s.next + 1), own, none, none, none, none⟩ t = .ok { t with refs := s.refs } := by
      intro own t ht hown
      subst hown
      apply dealloc_ok (by simp)
      rw [ht]
      simp [owned]
    by_cases hn : x.isNone ∨ y.isNone ∨ z.isNone ∨ (a.mask.isSome ∧ m.isNone)
    · rw [if_pos hn]
      rw [releaseAll_ok _ _ _ (by exact hr)]
      simp only [bind, Except.bind, pure, Except.pure]
      rw [hnew {} ⟨s4.next, (s.next + 1) ::ₘ s.next ::ₘ s.refs, some .valueError⟩ rfl rfl]
      refine ⟨none, _, rfl, by simp, fun _ => ⟨rfl, Or.inr ⟨rfl, ?_⟩⟩, fun _ => rfl⟩
      simp only [Option.isNone_iff_eq_none] at hn
      have key : ∀ (g : Arg) (p : Place) (n : Nat), (g = .unfit ∨ g = .copy ∧ F n p = true) → (∃ n p, F n p = true) ∨ ¬ g.Fits := by
        rintro g p n (rfl | ⟨rfl, h⟩)
        · exact Or.inr fun h => h
        · exact Or.inl ⟨_, _, h⟩
      rcases hn with h | h | h | h
      · exact (key _ _ _ (q1.1 h)).imp_right fun k hh => k hh.2.1
      · exact (key _ _ _ (q2.1 h)).imp_right fun k hh => k hh.2.2.1
      · exact (key _ _ _ (q3.1 h)).imp_right fun k hh => k hh.2.2.2.1
      · obtain ⟨g, hg, hk⟩ := q4 h
        exact (key _ _ _ hk).imp_right fun k hh => k (hh.2.2.2.2 g hg)
    · rw [if_neg hn]
      simp only [Option.isNone_iff_eq_none, not_or] at hn
      by_cases hsh : a.sameShape = false
      · rw [if_pos hsh]
        rw [releaseAll_ok _ _ _ (by exact hr)]
        simp only [bind, Except.bind, pure, Except.pure]
        rw [hnew {} ⟨s4.next, (s.next + 1) ::ₘ s.next ::ₘ s.refs, some .valueError⟩ rfl rfl]
        refine ⟨none, _, rfl, by simp, fun _ => ⟨rfl, Or.inr ⟨rfl, Or.inr fun h => ?_⟩⟩, fun _ => rfl⟩
        rw [hsh] at h
        simp at h
      · rw [if_neg hsh]
        obtain ⟨d, ad, g, s', i1, i2, i3⟩ := siteInit_ok hF a.mask.isSome (b := s.next + 1) (s := s4) (by rw [hr]; simp) {}
        rw [i1]
        simp only [if_true, bind, Except.bind, pure, Except.pure]
        obtain ⟨k1, k2, k3, k4⟩ := hn
        refine ⟨_, _, rfl, ?_, by simp, ?_⟩
        rotate_left
        · rintro (⟨c, h⟩ | ⟨c, h⟩ | ⟨c, h⟩)
          · exact absurd (q1.2 (Or.inr ⟨c, h _⟩)) k1
          · exact absurd (q2.2 (Or.inr ⟨c, h _⟩)) k2
          · exact absurd (q3.2 (Or.inr ⟨c, h _⟩)) k3
        intro o h
        injection h with h
        subst h
        refine ⟨⟨rfl, rfl, rfl, Option.isSome_iff_ne_none.2 k1, Option.isSome_iff_ne_none.2 k2, Option.isSome_iff_ne_none.2 k3⟩, ?_,
          by simpa using hsh, hfit _ _ _ q1 k1, hfit _ _ _ q2 k2, hfit _ _ _ q3 k3, ?_⟩
        · rw [i2, hr]
          unfold owned
          simp only
          cases x <;> cases y <;> cases z <;> cases m <;> cases g <;>
            simp only [held_some, held_none, held_nil, ← Multiset.singleton_add] <;> abel
        · intro m' hm'
          exact q5 (fun h => k4 ⟨by rw [hm']; rfl, h⟩) m' hm'

end Trackeddy.Mem
