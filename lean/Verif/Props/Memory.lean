import Verif.Proofs.Memory

/-!
C132, C133: memory and reference counts in cntr.c.
-/
namespace Trackeddy.Mem

/-- the arguments are two dimensional arrays of numbers of the same shape -/
def Args.Accepted (a : Args) : Prop :=
  a.sameShape = true ∧ a.x.Fits ∧ a.y.Fits ∧ a.z.Fits ∧ ∀ m, a.mask = some m → m.Fits

/-- **C133, partial**: if the allocations named in `Critical` succeed, then whatever others fail and whatever the arguments are, no
freed memory and no null pointer is used, and what is held afterwards is what was held before and the result. An exception is
`ValueError` for arguments that are not accepted, otherwise some allocation has failed. Missing: the critical allocations
(`C133_refuted`). -/
theorem C133_partial {F : Failures} (hF : ∀ n p, Critical p → F n p = false) (a : Args) (segs : List Nat) (s : St) (_hs : s.err = none) :
    ∃ r s', extractMem F a segs s = .ok (r, s') ∧ s'.refs = r.blocks + s.refs ∧ s'.err = none ∧
      (∀ l items, r = .value l items → a.Accepted ∧ items.length = 2 * segs.length) ∧
      (∀ e, r = .raised e → (¬ a.Accepted ∧ e = .valueError) ∨ ∃ n p, F n p = true) := by
  unfold extractMem
  obtain ⟨r, t, h1, h2, h3, -⟩ := construct_ok hF a s
  rw [h1]
  simp only [bind, Except.bind]
  cases r with
  | none =>
    obtain ⟨g1, g2⟩ := h3 rfl
    refine ⟨_, _, rfl, by simp [raisedBy, Result.blocks, g1], rfl, by simp [raisedBy], ?_⟩
    intro e he
    rcases g2 with ⟨k1, k2⟩ | ⟨k1, k2 | k2⟩
    · exact Or.inr ⟨_, _, k2⟩
    · exact Or.inr k2
    · left
      refine ⟨k2, ?_⟩
      unfold raisedBy at he
      rw [k1] at he
      injection he with he
      exact he.symm
  | some o =>
    obtain ⟨g1, g2, g3⟩ := h2 o rfl
    obtain ⟨res, t', k1, k2, k3, k4⟩ := traceMem_ok hF g1 segs t g2
    simp only
    rw [k1]
    simp only
    rw [dealloc_ok (R := heldList res + s.refs) g1.1 (by simp only; rw [k2, g2]; abel)]
    cases res with
    | none =>
      refine ⟨_, _, rfl, by simp [raisedBy, Result.blocks, heldList], rfl, by simp [raisedBy], ?_⟩
      intro e _
      exact Or.inr (k4 rfl).2
    | some li =>
      obtain ⟨l, items⟩ := li
      refine ⟨_, _, rfl, rfl, rfl, ?_, by simp⟩
      intro l' items' h
      injection h with ha hb
      subst hb
      exact ⟨g3, (k3 l items rfl).2⟩

/-- **C132** without failing allocations a call of `extract_contours` uses no freed memory and no null pointer; afterwards exactly
the returned list and its arrays, two for each contour, are held in addition; if the arguments are not accepted there is a
`ValueError` and nothing in addition. -/
theorem C132_one_call {F : Failures} (hF : ∀ n p, F n p = false) (a : Args) (segs : List Nat) (s : St) (hs : s.err = none) :
    ∃ r s', extractMem F a segs s = .ok (r, s') ∧ s'.refs = r.blocks + s.refs ∧ s'.err = none ∧
      (a.Accepted → ∃ l items, r = .value l items ∧ items.length = 2 * segs.length) ∧
      (¬ a.Accepted → r = .raised .valueError) := by
  obtain ⟨r, s', h1, h2, h3, h4, h5⟩ := C133_partial (F := F) (fun n p _ => hF n p) a segs s hs
  have hno : ¬ ∃ n p, F n p = true := by
    rintro ⟨n, p, h⟩
    rw [hF] at h
    exact absurd h (by simp)
  refine ⟨r, s', h1, h2, h3, fun ha => ?_, fun ha => ?_⟩
  · cases r with
    | value l items => exact ⟨l, items, rfl, (h4 l items rfl).2⟩
    | raised e =>
      rcases h5 e rfl with h | h
      · exact absurd ha h.1
      · exact absurd h hno
  · cases r with
    | value l items => exact absurd (h4 l items rfl).1 ha
    | raised e =>
      rcases h5 e rfl with h | h
      · rw [h.2]
      · exact absurd h hno

/-- any number of calls, each result being given up before the next one -/
def calls (F : Failures) : List (Args × List Nat) → St → Except Bad St
  | [], s => .ok s
  | c :: cs, s => do
    let (r, s) ← extractMem F c.1 c.2 s
    let s ← match r with
      | .value l items => releaseList (some l) items s
      | .raised _ => .ok s
    calls F cs s

/-- **C132** over any number of calls, with arguments of any kind, nothing is lost: afterwards exactly what was held before is
held. With failing allocations this stays true as long as the critical ones succeed. -/
theorem C132_session {F : Failures} (hF : ∀ n p, Critical p → F n p = false) (cs : List (Args × List Nat)) :
    ∀ s : St, s.err = none → ∃ s', calls F cs s = .ok s' ∧ s'.refs = s.refs ∧ s'.err = none := by
  induction cs with
  | nil => exact fun s hs => ⟨s, rfl, rfl, hs⟩
  | cons c cs ih =>
    intro s hs
    obtain ⟨r, t, h1, h2, h3, -⟩ := C133_partial hF c.1 c.2 s hs
    unfold calls
    rw [h1]
    simp only [bind, Except.bind]
    cases r with
    | raised e =>
      simp only
      obtain ⟨s', g1, g2, g3⟩ := ih t h3
      exact ⟨s', g1, by rw [g2, h2]; simp [Result.blocks], g3⟩
    | value l items =>
      simp only [Result.blocks, Multiset.cons_add] at h2
      unfold releaseList
      simp only
      rw [release_ok h2]
      simp only [bind, Except.bind]
      rw [releaseAll_ok _ _ s.refs (by simp only; rw [held_map_some])]
      simp only
      obtain ⟨s', g1, g2, g3⟩ := ih { t with refs := s.refs } h3
      exact ⟨s', g1, g2, g3⟩

/-! ### failures that are not survived -/

/-- allocations fail at one place -/
def onlyAt (p : Place) : Failures := fun _ q => decide (q = p)

theorem onlyAt_self (p : Place) (n : Nat) : onlyAt p n p = true := by simp [onlyAt]

theorem onlyAt_ne {p q : Place} (h : q ≠ p) (n : Nat) : onlyAt p n q = false := by simp [onlyAt, h]

/-- blocks in use have been allocated before -/
def Fresh (s : St) : Prop := ∀ b ∈ s.refs, b < s.next

/-- arrays that are passed on as they are exist -/
def Args.Live (a : Args) (s : St) : Prop :=
  ∀ b, (a.x = .same b ∨ a.y = .same b ∨ a.z = .same b) → b ∈ s.refs

theorem releaseAll_inv (ps : List (Option Nat)) : ∀ s s', releaseAll ps s = .ok s' → s.refs = held ps + s'.refs := by
  induction ps with
  | nil =>
    intro s s' h
    injection h with h
    subst h
    simp
  | cons p ps ih =>
    intro s s' h
    cases p with
    | none => exact ih s s' h
    | some b =>
      unfold releaseAll release at h
      by_cases hb : b ∈ s.refs
      · simp only [hb, if_true, bind, Except.bind] at h
        have := ih _ _ h
        simp only at this
        rw [held_some, Multiset.cons_add, ← this, Multiset.cons_erase hb]
      · simp only [hb, if_false, bind, Except.bind] at h
        cases h

/-- what stands in the way of an undefined behaviour: the places of a contour -/
def Place.ofContour : Place → Option Nat
  | .verts i | .codes i | .i0 i | .i1 i | .subp i | .shrinkVerts i | .shrinkCodes i => some i
  | _ => none

theorem onlyAt_other {p q : Place} {i : Nat} (h : p.ofContour ≠ some i) (hq : q.ofContour = some i) (n : Nat) : onlyAt p n q = false := by
  apply onlyAt_ne
  rintro rfl
  exact h hq

theorem buildLoop_step {F : Failures} {lb i nsegs : Nat} {rest : List Nat} {kv : Option Nat} {items : List Nat} {s : St}
    (hF : ∀ n q, q.ofContour = some i → F n q = false) (hl : lb ∈ s.refs) :
    ∃ t, buildLoop F (some lb) i (nsegs :: rest) kv items s =
        buildLoop F (some lb) (i + 1) rest (some (s.next + 1)) (items ++ [s.next, s.next + 1]) t ∧
      t.refs = (s.next + 1) ::ₘ s.next ::ₘ s.refs ∧ s.next + 2 ≤ t.next := by
  rw [buildLoop]
  simp only
  rw [allocPy_works (hF _ _ rfl)]
  simp only
  rw [allocPy_works (hF _ _ rfl)]
  simp only
  obtain ⟨t, ht, hr, he, hn⟩ := reorderMem_ok (F := F) (i := i) nsegs
    { next := s.next + 1 + 1, refs := (s.next + 1) ::ₘ s.next ::ₘ s.refs, err := s.err }
    (fun n => hF n _ rfl) (fun n => hF n _ rfl) (fun n => hF n _ rfl)
  rw [ht]
  simp only [bind, Except.bind]
  rw [hF _ (.shrinkVerts i) rfl, hF _ (.shrinkCodes i) rfl]
  simp only [Bool.false_eq_true, if_false]
  rw [access_ok (by simp only; rw [hr]; simp [hl])]
  exact ⟨_, rfl, hr, by simp only at hn ⊢; omega⟩

theorem reorderMem_bad {p : Place} {i nsegs : Nat} {s : St} (hn : nsegs ≠ 0) (hp : p = .i0 i ∨ p = .i1 i ∨ p = .subp i) :
    ∃ b, reorderMem (onlyAt p) i nsegs s = .error b := by
  unfold reorderMem
  rcases hp with rfl | rfl | rfl
  · rw [alloc_fails (onlyAt_self _ _)]
    simp only
    rw [alloc_works (onlyAt_ne (by simp) _)]
    simp only [hn, if_false, access, bind, Except.bind]
    exact ⟨_, rfl⟩
  · rw [alloc_works (onlyAt_ne (by simp) _)]
    simp only
    rw [alloc_fails (onlyAt_self _ _)]
    simp only [hn, if_false, bind, Except.bind]
    rw [access_ok (by simp)]
    exact ⟨_, rfl⟩
  · rw [alloc_works (onlyAt_ne (by simp) _)]
    simp only
    rw [alloc_works (onlyAt_ne (by simp) _)]
    simp only [hn, if_false, bind, Except.bind]
    rw [access_ok (by simp), access_ok (by simp)]
    simp only
    rw [alloc_fails (onlyAt_self _ _)]
    exact ⟨_, rfl⟩

theorem buildLoop_bad {p : Place} {t : Nat} (hp : Critical p) (ht : p.ofContour = some t) (lb : Nat) (segs : List Nat) :
    ∀ (i : Nat) (kv : Option Nat) (items : List Nat) (s : St), i ≤ t → t < i + segs.length → (∀ n ∈ segs, n ≠ 0) → lb ∈ s.refs → Fresh s →
      (i ≠ 0 → ∃ k, kv = some k ∧ k ∈ items ∧ s.refs.count k = 1) →
      ∃ b, buildLoop (onlyAt p) (some lb) i segs kv items s = .error b := by
  induction segs with
  | nil =>
    intro i kv items s h1 h2
    simp at h2
    omega
  | cons nsegs rest ih =>
    intro i kv items s h1 h2 h3 h4 h5 h6
    by_cases hit : i = t
    · subst hit
      have hns := h3 nsegs (List.mem_cons_self ..)
      have hcase : (p = .verts i ∧ i ≠ 0) ∨ p = .i0 i ∨ p = .i1 i ∨ p = .subp i := by
        cases p <;> simp [Place.ofContour] at ht <;> subst ht
        case verts j =>
          left
          refine ⟨rfl, ?_⟩
          rintro rfl
          exact hp
        all_goals first | exact hp.elim | simp
      rw [buildLoop]
      simp only
      rcases hcase with ⟨rfl, hi⟩ | hcase
      · obtain ⟨k, rfl, hk, hc⟩ := h6 hi
        rw [allocPy_fails (onlyAt_self _ _)]
        simp only
        have hk' : k ∈ s.refs := by
          rw [← Multiset.count_pos, hc]
          exact one_pos
        rw [releaseAll_ok _ _ (s.refs.erase k) (by simp [Multiset.cons_erase hk'])]
        simp only [bind, Except.bind]
        cases hrl : releaseList (some lb) items { next := s.next + 1, refs := s.refs.erase k, err := some Exc.memoryError } with
        | error b => exact ⟨b, rfl⟩
        | ok s' =>
          exfalso
          unfold releaseList release at hrl
          simp only at hrl
          split at hrl
          · simp only [bind, Except.bind] at hrl
            have := releaseAll_inv _ _ _ hrl
            simp only at this
            have hmem : k ∈ (s.refs.erase k).erase lb := by
              rw [this, held_map_some]
              simp [hk]
            have hc0 : (s.refs.erase k).count k = 0 := by rw [Multiset.count_erase_self, hc]
            exact Multiset.count_eq_zero.1 hc0 (Multiset.mem_of_mem_erase hmem)
          · simp only [bind, Except.bind] at hrl
            cases hrl
      · obtain ⟨b, hb⟩ := reorderMem_bad (p := p) (i := i) (nsegs := nsegs)
          (s := { next := s.next + 1 + 1, refs := (s.next + 1) ::ₘ s.next ::ₘ s.refs, err := s.err }) hns hcase
        have hv : ∀ n, onlyAt p n (.verts i) = false := fun n => onlyAt_ne (by rcases hcase with rfl | rfl | rfl <;> simp) n
        have hk : ∀ n, onlyAt p n (.codes i) = false := fun n => onlyAt_ne (by rcases hcase with rfl | rfl | rfl <;> simp) n
        rw [allocPy_works (hv _)]
        simp only
        rw [allocPy_works (hk _)]
        simp only
        rw [hb]
        exact ⟨b, rfl⟩
    · obtain ⟨u, g1, g2, g3⟩ := buildLoop_step (F := onlyAt p) (nsegs := nsegs) (rest := rest) (kv := kv) (items := items) (i := i)
        (fun n q hq => onlyAt_other (by rw [ht]; simp; omega) hq n) h4
      rw [g1]
      have hlt : ∀ b, s.next ≤ b → b ∉ s.refs := fun b hb hm => absurd (h5 b hm) (by omega)
      apply ih (i + 1) _ _ u (by omega) (by simp at h2; omega) (fun n hn => h3 n (List.mem_cons_of_mem _ hn)) (by rw [g2]; simp [h4])
      · intro b hb
        rw [g2, Multiset.mem_cons, Multiset.mem_cons] at hb
        rcases hb with rfl | rfl | hb
        · omega
        · omega
        · have := h5 b hb
          omega
      · intro _
        refine ⟨s.next + 1, rfl, by simp, ?_⟩
        rw [g2, Multiset.count_cons_self, Multiset.count_cons_of_ne (by omega), Multiset.count_eq_zero.2 (hlt _ (by omega))]

theorem fresh_alloc {s : St} (h : Fresh s) (e : Option Exc) : Fresh { next := s.next + 1, refs := s.next ::ₘ s.refs, err := e } := by
  intro b hb
  rcases Multiset.mem_cons.1 hb with rfl | hb
  · simp
  · have := h b hb
    simp only
    omega

theorem convert_fits {F : Failures} {p : Place} {a : Arg} {s : St} (hF : ∀ n, F n p = false) (ha : a.Fits) (hfr : Fresh s)
    (hl : ∀ b, a = .same b → b ∈ s.refs) :
    ∃ q t, convert F p a s = (some q, t) ∧ t.refs = q ::ₘ s.refs ∧ t.err = s.err ∧ Fresh t := by
  cases a with
  | unfit => exact ha.elim
  | same b =>
    refine ⟨_, _, rfl, rfl, rfl, ?_⟩
    intro c hc
    rcases Multiset.mem_cons.1 hc with rfl | hc
    · exact hfr _ (hl _ rfl)
    · exact hfr _ hc
  | copy => exact ⟨_, _, allocPy_works (hF _), rfl, rfl, fresh_alloc hfr _⟩

/-- the constructor up to `cntr_init` -/
theorem construct_eq {F : Failures} {a : Args} {s : St} (ha : a.Accepted) (hm : a.mask = none) (hl : a.Live s) (hfr : Fresh s)
    (ho : ∀ n, F n .object = false) (hsi : ∀ n, F n .site = false) (hx : ∀ n, F n .xArray = false) (hy : ∀ n, F n .yArray = false)
    (hz : ∀ n, F n .zArray = false) :
    ∃ x y z t, t.refs = held [some x, some y, some z] + ((s.next + 1) ::ₘ s.next ::ₘ s.refs) ∧ t.err = s.err ∧ Fresh t ∧
      construct F a s = (do
        let (ok, r, u) ← siteInit F false (some (s.next + 1)) {} t
        if ok then return (some ⟨s.next, some (s.next + 1), r, some x, some y, some z, none⟩, u)
        else
          let u ← releaseAll [some x, some y, some z, none] { u with err := some .memoryError }
          let u ← dealloc ⟨s.next, some (s.next + 1), r, none, none, none, none⟩ u
          return (none, u)) := by
  obtain ⟨h1, h2, h3, h4, -⟩ := ha
  have hf1 : Fresh { next := s.next + 1 + 1, refs := (s.next + 1) ::ₘ s.next ::ₘ s.refs, err := s.err } :=
    fresh_alloc (fresh_alloc hfr s.err) s.err
  obtain ⟨x, t1, a1, r1, e1, f1⟩ := convert_fits hx h2 hf1 (fun b hb => by simp [hl b (Or.inl hb)])
  obtain ⟨y, t2, a2, r2, e2, f2⟩ := convert_fits hy h3 f1 (fun b hb => by simp [r1, hl b (Or.inr (Or.inl hb))])
  obtain ⟨z, t3, a3, r3, e3, f3⟩ := convert_fits hz h4 f2 (fun b hb => by simp [r2, r1, hl b (Or.inr (Or.inr hb))])
  refine ⟨x, y, z, t3, ?_, by rw [e3, e2, e1], f3, ?_⟩
  · rw [r3, r2, r1]
    simp only [held_some, held_nil, ← Multiset.singleton_add]
    abel
  · unfold construct cntrNew
    rw [allocPy_works (ho _)]
    simp only
    rw [alloc_works (hsi _)]
    simp only [bind, Except.bind]
    unfold objInit
    rw [a1]
    simp only
    rw [a2]
    simp only
    rw [a3]
    simp only [hm, convertMask, Option.isNone_some, Option.isNone_none, Option.isSome_none, Bool.false_eq_true, false_and, or_false, if_false, h1,
      Bool.true_eq_false, bind, Except.bind, pure, Except.pure]
    cases siteInit F false (some (s.next + 1)) {} t3 with
    | error b => rfl
    | ok v =>
      obtain ⟨ok, r, u⟩ := v
      cases ok with
      | true => rfl
      | false =>
        simp only [Bool.false_eq_true, if_false]
        cases releaseAll [some x, some y, some z, none] { next := u.next, refs := u.refs, err := some Exc.memoryError } with
        | error b => rfl
        | ok u => rfl

theorem siteInit_fails {p : Place} (hp : p = .data ∨ p = .saddle) {b : Nat} {t : St} {R : Multiset Nat} (ht : t.refs = b ::ₘ R) :
    ∃ r u, siteInit (onlyAt p) false (some b) {} t = .ok (false, r, u) ∧ u.refs = R := by
  unfold siteInit
  rw [access_ok (by rw [ht]; simp)]
  simp only [bind, Except.bind]
  rcases hp with rfl | rfl
  · rw [alloc_fails (onlyAt_self _ _)]
    simp only
    rw [release_ok (s := ⟨t.next + 1, t.refs, t.err⟩) (R := R) ht]
    exact ⟨_, _, rfl, rfl⟩
  · rw [alloc_works (onlyAt_ne (by simp) _)]
    simp only
    rw [alloc_fails (onlyAt_self _ _)]
    simp only
    rw [releaseAll_ok _ _ R (by simp [ht])]
    exact ⟨_, _, rfl, rfl⟩

theorem construct_bad {p : Place} (hp : p = .site ∨ p = .data ∨ p = .saddle) {a : Args} {s : St} (ha : a.Accepted) (hm : a.mask = none)
    (hl : a.Live s) (hfr : Fresh s) : ∃ b, construct (onlyAt p) a s = .error b := by
  rcases hp with rfl | hp
  · unfold construct cntrNew
    rw [allocPy_works (onlyAt_ne (by simp) _)]
    simp only
    rw [alloc_fails (onlyAt_self _ _)]
    exact ⟨_, rfl⟩
  · obtain ⟨x, y, z, t, hr, he, hf, hc⟩ := construct_eq (F := onlyAt p) ha hm hl hfr
      (fun n => onlyAt_ne (by rcases hp with rfl | rfl <;> simp) n) (fun n => onlyAt_ne (by rcases hp with rfl | rfl <;> simp) n)
      (fun n => onlyAt_ne (by rcases hp with rfl | rfl <;> simp) n) (fun n => onlyAt_ne (by rcases hp with rfl | rfl <;> simp) n)
      (fun n => onlyAt_ne (by rcases hp with rfl | rfl <;> simp) n)
    obtain ⟨r, u, g1, g2⟩ := siteInit_fails hp (b := s.next + 1) (t := t) (R := held [some x, some y, some z] + s.next ::ₘ s.refs) (by
      rw [hr]
      simp only [held_some, held_nil, ← Multiset.singleton_add]
      abel)
    rw [hc, g1]
    simp only [bind, Except.bind, Bool.false_eq_true, if_false]
    rw [releaseAll_ok _ _ (s.next ::ₘ s.refs) (by simp [g2])]
    simp only
    have hno : s.next + 1 ∉ s.next ::ₘ s.refs := by
      intro h
      rcases Multiset.mem_cons.1 h with h | h
      · omega
      · have := hfr _ h
        omega
    simp only [dealloc, cntrDel, access, hno, if_false, bind, Except.bind]
    exact ⟨_, rfl⟩

/-- the constructor succeeds -/
theorem construct_works {F : Failures} {a : Args} {s : St} (ha : a.Accepted) (hm : a.mask = none) (hl : a.Live s) (hfr : Fresh s)
    (ho : ∀ n, F n .object = false) (hsi : ∀ n, F n .site = false) (hx : ∀ n, F n .xArray = false) (hy : ∀ n, F n .yArray = false)
    (hz : ∀ n, F n .zArray = false) (hd : ∀ n, F n .data = false) (hsa : ∀ n, F n .saddle = false) :
    ∃ o t, construct F a s = .ok (some o, t) ∧ Whole o ∧ t.refs = owned o + s.refs ∧ t.err = s.err ∧ Fresh t := by
  obtain ⟨x, y, z, t, hr, he, hf, hc⟩ := construct_eq ha hm hl hfr ho hsi hx hy hz
  rw [hc]
  unfold siteInit
  rw [access_ok (by rw [hr]; simp)]
  simp only [bind, Except.bind]
  rw [alloc_works (hd _)]
  simp only
  rw [alloc_works (hsa _)]
  refine ⟨_, _, rfl, ⟨rfl, rfl, rfl, rfl, rfl, rfl⟩, ?_, he, ?_⟩
  · rw [hr]
    unfold owned
    simp only [held_some, held_none, held_nil, ← Multiset.singleton_add]
    abel
  · exact fresh_alloc (fresh_alloc hf t.err) t.err

/-- `cntr_trace` up to the list -/
theorem traceMem_eq {F : Failures} {o : Obj} (ho : Whole o) (segs : List Nat) {s : St} {R : Multiset Nat} (hs : s.refs = owned o + R)
    (hfr : Fresh s) (hx : ∀ n, F n .xp = false) (hy : ∀ n, F n .yp = false) (hk : ∀ n, F n .kp = false) (hn : ∀ n, F n .nseg = false) :
    ∃ t ps, t.refs = held ps + s.refs ∧ t.err = s.err ∧ Fresh t ∧ traceMem F o segs s = (do
      let (res, u) ← buildList F segs t
      let u ← releaseAll ps u
      return (res, u)) := by
  obtain ⟨h1, h2, h3, h4, h5, h6⟩ := ho
  obtain ⟨b1, e1⟩ := Option.isSome_iff_exists.1 h1
  obtain ⟨b2, e2⟩ := Option.isSome_iff_exists.1 h2
  obtain ⟨b3, e3⟩ := Option.isSome_iff_exists.1 h3
  obtain ⟨b4, e4⟩ := Option.isSome_iff_exists.1 h4
  obtain ⟨b5, e5⟩ := Option.isSome_iff_exists.1 h5
  obtain ⟨b6, e6⟩ := Option.isSome_iff_exists.1 h6
  unfold owned at hs
  rw [e1, e2, e3, e4, e5, e6] at hs
  have hm : b1 ∈ s.refs ∧ b2 ∈ s.refs ∧ b3 ∈ s.refs ∧ b4 ∈ s.refs ∧ b5 ∈ s.refs ∧ b6 ∈ s.refs := by
    rw [hs]
    cases o.own.reg <;> simp
  obtain ⟨m1, m2, m3, m4, m5, m6⟩ := hm
  have hf := fresh_alloc (fresh_alloc (fresh_alloc (fresh_alloc hfr s.err) s.err) s.err) s.err
  simp only at hf
  refine ⟨⟨s.next + 1 + 1 + 1 + 1, (s.next + 1 + 1 + 1) ::ₘ (s.next + 1 + 1) ::ₘ (s.next + 1) ::ₘ s.next ::ₘ s.refs, s.err⟩,
    [some s.next, some (s.next + 1), some (s.next + 1 + 1), some (s.next + 1 + 1 + 1)], ?_, rfl, hf, ?_⟩
  · simp only [held_some, held_nil, ← Multiset.singleton_add]
    abel
  · unfold traceMem
    rw [e1, e2, e3, e4, e5, e6, access_ok m1, access_ok m2, access_ok m3, access_ok m4, access_ok m5, access_ok m6]
    simp only [bind, Except.bind]
    rw [alloc_works (hx _)]
    simp only
    rw [alloc_works (hy _)]
    simp only
    rw [alloc_works (hk _)]
    simp only
    rw [alloc_works (hn _)]
    simp only [Option.isNone_some, Bool.false_eq_true, or_self, if_false]
    rw [access_ok (by simp), access_ok (by simp), access_ok (by simp), access_ok (by simp)]

theorem buildList_bad {p : Place} (hp : Critical p) {segs : List Nat} (hc : p = .list ∨ ∃ t, p.ofContour = some t ∧ t < segs.length)
    (hne : segs ≠ []) (hpos : ∀ n ∈ segs, n ≠ 0) {s : St} (hfr : Fresh s) : ∃ b, buildList (onlyAt p) segs s = .error b := by
  unfold buildList
  rcases hc with rfl | ⟨t, ht, hlt⟩
  · rw [allocPy_fails (onlyAt_self _ _)]
    simp only
    obtain ⟨n, rest, rfl⟩ := List.exists_cons_of_ne_nil hne
    rw [buildLoop]
    simp only
    rw [allocPy_works (onlyAt_ne (by simp) _)]
    simp only
    rw [allocPy_works (onlyAt_ne (by simp) _)]
    simp only
    obtain ⟨u, hu, -⟩ := reorderMem_ok (F := onlyAt .list) (i := 0) n
      { next := s.next + 1 + 1 + 1, refs := (s.next + 1 + 1) ::ₘ (s.next + 1) ::ₘ s.refs, err := some .memoryError }
      (fun n => onlyAt_ne (by simp) _) (fun n => onlyAt_ne (by simp) _) (fun n => onlyAt_ne (by simp) _)
    rw [hu]
    simp only [bind, Except.bind]
    rw [onlyAt_ne (by simp), onlyAt_ne (by simp)]
    exact ⟨_, rfl⟩
  · have hne' : Place.list ≠ p := by
      rintro rfl
      simp [Place.ofContour] at ht
    rw [allocPy_works (onlyAt_ne hne' _)]
    simp only
    obtain ⟨b, hb⟩ := buildLoop_bad hp ht s.next segs 0 none [] { next := s.next + 1, refs := s.next ::ₘ s.refs, err := s.err } (by omega)
      (by omega) hpos (by simp) (fresh_alloc hfr _) (by simp)
    rw [hb]
    exact ⟨b, rfl⟩

/-- **C133** is false: if an allocation fails at one of the critical places, the call ends in the use of a null pointer or of freed
memory, whatever the arrays and the level are, provided that there are contours (and one with that number). Places: the state of the tracer
and its arrays, the list, the work arrays of `reorder` for any contour, the vertices of any contour but the first. -/
theorem C133_refuted {p : Place} (hp : Critical p) (hreg : p ≠ .reg) {a : Args} (ha : a.Accepted) (hm : a.mask = none) {s : St}
    (hl : a.Live s) (hfr : Fresh s) {segs : List Nat} (hne : segs ≠ []) (hpos : ∀ n ∈ segs, n ≠ 0)
    (hin : ∀ t, p.ofContour = some t → t < segs.length) : ∃ b, extractMem (onlyAt p) a segs s = .error b := by
  unfold extractMem
  by_cases hc : p = .site ∨ p = .data ∨ p = .saddle
  · obtain ⟨b, hb⟩ := construct_bad hc ha hm hl hfr
    rw [hb]
    exact ⟨b, rfl⟩
  · have hkind : p = .list ∨ ∃ t, p.ofContour = some t ∧ t < segs.length := by
      cases hq : p.ofContour with
      | some t => exact Or.inr ⟨t, rfl, hin t hq⟩
      | none =>
        left
        cases p <;> simp [Place.ofContour] at hq <;> simp at hc hreg <;> first | exact hp.elim | rfl
    have hno : ∀ q : Place, q.ofContour = none → q ≠ .list → ∀ n, onlyAt p n q = false := by
      intro q h1 h2 n
      apply onlyAt_ne
      rintro rfl
      rcases hkind with h | ⟨t, ht, -⟩
      · exact h2 h
      · rw [h1] at ht
        cases ht
    obtain ⟨o, t, g1, g2, g3, g4, g5⟩ := construct_works (F := onlyAt p) ha hm hl hfr (hno _ rfl (by simp)) (hno _ rfl (by simp))
      (hno _ rfl (by simp)) (hno _ rfl (by simp)) (hno _ rfl (by simp)) (hno _ rfl (by simp)) (hno _ rfl (by simp))
    rw [g1]
    simp only [bind, Except.bind]
    obtain ⟨u, ps, k1, k2, k3, k4⟩ := traceMem_eq (F := onlyAt p) g2 segs g3 g5 (hno _ rfl (by simp)) (hno _ rfl (by simp))
      (hno _ rfl (by simp)) (hno _ rfl (by simp))
    obtain ⟨b, hb⟩ := buildList_bad hp hkind hne hpos k3
    rw [k4, hb]
    exact ⟨b, rfl⟩

theorem traceMem_null {F : Failures} {o : Obj} (ho : Whole o) (segs : List Nat) {s : St} {R : Multiset Nat} (hs : s.refs = owned o + R)
    (hF : (∀ n, F n .xp = true) ∨ (∀ n, F n .yp = true) ∨ (∀ n, F n .kp = true) ∨ (∀ n, F n .nseg = true)) :
    ∃ t, traceMem F o segs s = .ok (none, t) ∧ t.refs = s.refs ∧ t.err = s.err := by
  obtain ⟨h1, h2, h3, h4, h5, h6⟩ := ho
  obtain ⟨b1, e1⟩ := Option.isSome_iff_exists.1 h1
  obtain ⟨b2, e2⟩ := Option.isSome_iff_exists.1 h2
  obtain ⟨b3, e3⟩ := Option.isSome_iff_exists.1 h3
  obtain ⟨b4, e4⟩ := Option.isSome_iff_exists.1 h4
  obtain ⟨b5, e5⟩ := Option.isSome_iff_exists.1 h5
  obtain ⟨b6, e6⟩ := Option.isSome_iff_exists.1 h6
  unfold owned at hs
  rw [e1, e2, e3, e4, e5, e6] at hs
  have hm : b1 ∈ s.refs ∧ b2 ∈ s.refs ∧ b3 ∈ s.refs ∧ b4 ∈ s.refs ∧ b5 ∈ s.refs ∧ b6 ∈ s.refs := by
    rw [hs]
    cases o.own.reg <;> simp
  obtain ⟨m1, m2, m3, m4, m5, m6⟩ := hm
  unfold traceMem
  rw [e1, e2, e3, e4, e5, e6, access_ok m1, access_ok m2, access_ok m3, access_ok m4, access_ok m5, access_ok m6]
  simp only [bind, Except.bind]
  obtain ⟨xp, s1, a1, r1, c1, n1, -⟩ := alloc_spec F .xp s
  rw [a1]
  simp only
  obtain ⟨yp, s2, a2, r2, c2, n2, -⟩ := alloc_spec F .yp s1
  rw [a2]
  simp only
  obtain ⟨kp, s3, a3, r3, c3, n3, -⟩ := alloc_spec F .kp s2
  rw [a3]
  simp only
  obtain ⟨np, s4, a4, r4, c4, n4, -⟩ := alloc_spec F .nseg s3
  rw [a4]
  simp only
  have hr : s4.refs = held [xp, yp, kp, np] + s.refs := by
    rw [r4, r3, r2, r1]
    cases xp <;> cases yp <;> cases kp <;> cases np <;> simp only [held_some, held_none, held_nil, ← Multiset.singleton_add] <;> abel
  rw [if_pos (by
    simp only [Option.isNone_iff_eq_none]
    rcases hF with h | h | h | h
    · exact Or.inl (n1.2 (h _))
    · exact Or.inr (Or.inl (n2.2 (h _)))
    · exact Or.inr (Or.inr (Or.inl (n3.2 (h _))))
    · exact Or.inr (Or.inr (Or.inr (n4.2 (h _)))))]
  rw [releaseAll_ok _ _ _ hr]
  exact ⟨_, rfl, rfl, by simp only; rw [c4, c3, c2, c1]⟩

/-- **C133** the exception is not always `MemoryError` either: if one of the buffers for the vertices cannot be allocated, `trace`
returns NULL without having set an exception, which the interpreter turns into `SystemError`. -/
theorem C133_refuted_exception {p : Place} (hp : p = .xp ∨ p = .yp ∨ p = .kp ∨ p = .nseg) {a : Args} (ha : a.Accepted) (hm : a.mask = none)
    {s : St} (hl : a.Live s) (hfr : Fresh s) (hs : s.err = none) (segs : List Nat) :
    ∃ s', extractMem (onlyAt p) a segs s = .ok (.raised .systemError, s') ∧ s'.refs = s.refs := by
  have hno : ∀ q : Place, q ∉ [Place.xp, .yp, .kp, .nseg] → ∀ n, onlyAt p n q = false := by
    intro q hq n
    apply onlyAt_ne
    rintro rfl
    apply hq
    simpa using hp
  unfold extractMem
  obtain ⟨o, t, g1, g2, g3, g4, -⟩ := construct_works (F := onlyAt p) ha hm hl hfr (hno _ (by simp)) (hno _ (by simp))
    (hno _ (by simp)) (hno _ (by simp)) (hno _ (by simp)) (hno _ (by simp)) (hno _ (by simp))
  rw [g1]
  simp only [bind, Except.bind]
  obtain ⟨u, k1, k2, k3⟩ := traceMem_null (F := onlyAt p) g2 segs g3 (by
    rcases hp with rfl | rfl | rfl | rfl
    · exact Or.inl fun n => onlyAt_self _ _
    · exact Or.inr (Or.inl fun n => onlyAt_self _ _)
    · exact Or.inr (Or.inr (Or.inl fun n => onlyAt_self _ _))
    · exact Or.inr (Or.inr (Or.inr fun n => onlyAt_self _ _)))
  rw [k1]
  simp only
  rw [dealloc_ok (R := s.refs) g2.1 (by simp only; rw [k2, g3])]
  refine ⟨{ u with refs := s.refs, err := none }, by simp [raisedBy, k3, g4, hs, pure, Except.pure], rfl⟩

/-- **C133** if an argument has to be copied and the copy cannot be allocated, the exception is `ValueError`, with the message that
the arguments have to be two dimensional arrays, though they are. -/
theorem C133_refuted_copy {p : Place} {a : Args} (hp : (a.x = .copy ∧ p = .xArray) ∨ (a.y = .copy ∧ p = .yArray) ∨ (a.z = .copy ∧ p = .zArray))
    (segs : List Nat) (s : St) : ∃ s', extractMem (onlyAt p) a segs s = .ok (.raised .valueError, s') ∧ s'.refs = s.refs := by
  obtain ⟨r, t, h1, -, h3, h4⟩ := construct_ok (F := onlyAt p) (fun n q hq => onlyAt_ne (by
    rintro rfl
    rcases hp with ⟨-, rfl⟩ | ⟨-, rfl⟩ | ⟨-, rfl⟩ <;> exact hq) n) a s
  obtain rfl : r = none := h4 (by
    rcases hp with ⟨c, rfl⟩ | ⟨c, rfl⟩ | ⟨c, rfl⟩
    · exact Or.inl ⟨c, fun n => onlyAt_self _ _⟩
    · exact Or.inr (Or.inl ⟨c, fun n => onlyAt_self _ _⟩)
    · exact Or.inr (Or.inr ⟨c, fun n => onlyAt_self _ _⟩))
  obtain ⟨g1, g2⟩ := h3 rfl
  unfold extractMem
  rw [h1]
  simp only [bind, Except.bind]
  refine ⟨{ t with err := none }, ?_, g1⟩
  rcases g2 with ⟨-, k⟩ | ⟨k, -⟩
  · rcases hp with ⟨-, rfl⟩ | ⟨-, rfl⟩ | ⟨-, rfl⟩ <;> simp [onlyAt] at k
  · simp [raisedBy, k, pure, Except.pure]

/-! ### non-vacuity -/

/-- three arrays that are used as they are -/
def someArgs : Args := ⟨.same 0, .same 1, .same 2, none, true⟩

/-- a state in which they exist -/
def someState : St := ⟨3, {0, 1, 2}, none⟩

example : someArgs.Accepted ∧ someArgs.mask = none ∧ someArgs.Live someState ∧ Fresh someState ∧ someState.err = none := by
  refine ⟨⟨rfl, trivial, trivial, trivial, by simp [someArgs]⟩, rfl, ?_, ?_, rfl⟩
  · intro b hb
    simp only [someArgs, Arg.same.injEq] at hb
    rcases hb with rfl | rfl | rfl <;> decide
  · intro b hb
    have : b = 0 ∨ b = 1 ∨ b = 2 := by simpa [someState] using hb
    simp only [someState]
    omega

/-- the vertices of the second contour cannot be allocated -/
example : ∃ b, extractMem (onlyAt (.verts 1)) someArgs [1, 1] someState = .error b := by
  refine C133_refuted (p := .verts 1) (a := someArgs) trivial (by simp) ⟨rfl, trivial, trivial, trivial, by simp [someArgs]⟩ rfl ?_ ?_ (by simp) (by simp)
    (by simp [Place.ofContour])
  · intro b hb
    simp only [someArgs, Arg.same.injEq] at hb
    rcases hb with rfl | rfl | rfl <;> decide
  · intro b hb
    have : b = 0 ∨ b = 1 ∨ b = 2 := by simpa [someState] using hb
    simp only [someState]
    omega

/-- failures at places that are not critical: the copies of the arguments and the codes of the contours -/
example : ∀ n p, Critical p → (fun (_ : Nat) (q : Place) => decide (q = .xArray) || decide (q = .codes 0)) n p = false := by
  intro n p hp
  cases p <;> first | exact hp.elim | simp

end Trackeddy.Mem
