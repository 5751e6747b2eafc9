import Verif.Proofs.Cntr.Crop

/-!
Start, direction and order make the contour lines of a level unique as a list.
-/
namespace Trackeddy.Cntr
open Trackeddy.Spec

variable {K : Type} [Field K] [LinearOrder K]

theorem before_asymm {e f : Side} (h : e.Before f) : ¬ f.Before e := by
  intro h'
  unfold Side.Before at h h'
  rcases h with h | ⟨h, h2 | ⟨h2, h3, h4⟩⟩ <;> rcases h' with g | ⟨g, g2 | ⟨g2, g3, g4⟩⟩ <;> first | omega | (rw [h3] at g4; simp at g4)

theorem sameLine_mem {l l' : List Side} (h2 : 2 ≤ l.length) (hs : SameLine l l') (e : Side) : e ∈ l ↔ e ∈ l' := by
  have smem : ∀ {l l' : List Side}, 2 ≤ l.length → SameLine l l' → ∀ e ∈ l, e ∈ l' := by
    intro es es2 h2 hs e he
    obtain ⟨k, hk, rfl⟩ := List.getElem_of_mem he
    by_cases hlt : k + 1 < es.length
    · exact ((hs.2 es[k] es[k + 1]).mp ⟨k, Or.inl ⟨List.getElem?_eq_getElem _, List.getElem?_eq_getElem _⟩⟩).mem.1
    · obtain ⟨j, rfl⟩ : ∃ j, k = j + 1 := ⟨k - 1, by omega⟩
      exact ((hs.2 es[j] es[j + 1]).mp ⟨j, Or.inl ⟨List.getElem?_eq_getElem _, List.getElem?_eq_getElem _⟩⟩).mem.2
  exact ⟨smem h2 hs e, smem (hs.1 ▸ h2) (sameLine_symm hs) e⟩

/-- sides two steps apart on a line are different -/
theorem apart {G : Grid K} {lev : K} {es : List Side} (h : G.IsContour lev es) (hn : (body es).Nodup) {k : Nat} (hk : k + 2 < es.length) :
    es[k] ≠ es[k + 2] := by
  intro he
  unfold body at hn
  by_cases hcl : es.head? = es.getLast?
  · rw [if_pos hcl] at hn
    have h5 := h.closed hcl
    have inj : ∀ (i j : Nat) (hi : i < es.length) (hj : j < es.length), 0 < i → 0 < j → es[i] = es[j] → i = j := by
      intro i j hi hj i0 j0 hij
      have := (List.Nodup.getElem_inj_iff hn (i := i - 1) (j := j - 1) (hi := by simp; omega) (hj := by simp; omega)).mp (by
        rw [List.getElem_tail, List.getElem_tail]
        have e1 : i - 1 + 1 = i := by omega
        have e2 : j - 1 + 1 = j := by omega
        simp only [e1, e2]; exact hij)
      omega
    rcases Nat.eq_zero_or_pos k with h0 | h0
    · subst h0
      have e2 : es[0] = es[es.length - 1] := by
        rw [List.head?_eq_getElem?, List.getElem?_eq_getElem (by omega), List.getLast?_eq_getElem?, List.getElem?_eq_getElem (by omega)] at hcl
        exact Option.some.inj hcl
      rw [e2] at he
      have := inj _ _ _ _ (by omega) (by omega) he
      omega
    · have := inj _ _ _ _ h0 (by omega) he
      omega
  · rw [if_neg hcl] at hn
    have := (List.Nodup.getElem_inj_iff hn).mp he
    omega

/-- lines of the same length that begin with the same two sides are equal -/
theorem same_begin {G : Grid K} {lev : K} {es es' : List Side} (h : G.IsContour lev es) (hn : (body es).Nodup) (h' : G.IsContour lev es')
    (hn' : (body es').Nodup) (hl : es.length = es'.length) (h0 : es[0]? = es'[0]?) (h1 : es[1]? = es'[1]?) : es = es' := by
  have two := h.two
  have step : ∀ k, (∀ hk : k < es.length, es[k] = es'[k]'(by omega)) ∧ (∀ hk : k + 1 < es.length, es[k + 1] = es'[k + 1]'(by omega)) := by
    intro k
    induction k with
    | zero =>
      constructor
      · intro hk
        rw [List.getElem?_eq_getElem hk, List.getElem?_eq_getElem (by omega)] at h0
        exact Option.some.inj h0
      · intro hk
        rw [List.getElem?_eq_getElem hk, List.getElem?_eq_getElem (by omega)] at h1
        exact Option.some.inj h1
    | succ k ih =>
      refine ⟨ih.2, fun hk => ?_⟩
      have e1 := ih.1 (by omega)
      have e2 := ih.2 (by omega)
      have j := h.joined
      have j' := h'.joined
      rw [List.isChain_iff_getElem] at j j'
      obtain ⟨a, ja⟩ : ∃ c, JoinedIn G lev c es[k] es[k + 1] := j k (by omega)
      obtain ⟨b, jb⟩ : ∃ c, JoinedIn G lev c es[k + 1] es[k + 2] := j (k + 1) hk
      obtain ⟨b', jb'⟩ : ∃ c, JoinedIn G lev c (es'[k + 1]'(by omega)) (es'[k + 2]'(by omega)) := j' (k + 1) (by omega)
      have n1 := apart h hn hk
      have n2 := apart h' hn' (k := k) (by omega)
      rw [← e1] at n2
      rw [← e2] at jb'
      have hab : a ≠ b := by rintro rfl; exact n1 (ja.symm.unique jb)
      have hab' : a ≠ b' := by rintro rfl; exact n2 (ja.symm.unique jb')
      rcases two_cells ja.symm.2.1 jb.2.1 jb'.2.1 hab with hh | hh
      · exact absurd hh.symm hab'
      · rw [hh] at jb'
        exact jb.unique jb'
  exact List.ext_getElem hl fun k hk _ => (step k).1 hk

theorem leftAbove_unique {G : Grid K} {lev : K} {e : Side} {c c' : ℕ × ℕ} (hx : G.Crossed lev e) (hc : e ∈ sidesOf c) (hc' : e ∈ sidesOf c')
    (h : G.LeftAbove lev e c) (h' : G.LeftAbove lev e c') : c = c' := by
  by_contra hne
  have key : (c = e.a ↔ e.vert = true) ↔ ¬ (c' = e.a ↔ e.vert = true) := by
    obtain ⟨i, j, v⟩ := e
    obtain ⟨a1, a2⟩ := c
    obtain ⟨b1, b2⟩ := c'
    simp only [sides_mem, Side.mk.injEq, Side.a, Prod.mk.injEq, ne_eq] at *
    cases v <;> simp only [Bool.false_eq_true, Bool.true_eq_false, and_false, and_true, or_false, false_or, iff_false, iff_true] at * <;> omega
  unfold Grid.LeftAbove at h h'
  unfold Grid.Crossed at hx
  rcases h with ⟨h1, h2⟩ | ⟨h1, h2⟩ <;> rcases h' with ⟨g1, g2⟩ | ⟨g1, g2⟩
  · exact key.mp h1 g1
  · exact hx ⟨fun _ => h2, fun _ => g2⟩
  · exact hx ⟨fun _ => g2, fun _ => h2⟩
  · exact h1 (key.mpr g1)

theorem highLeft_eq {G : Grid K} {lev : K} {es es' : List Side} (h : G.IsContour lev es) (hn : (body es).Nodup) (h' : G.IsContour lev es')
    (hn' : (body es').Nodup) (hl : es.length = es'.length) (h0 : es[0]? = es'[0]?) (hH : G.HighLeft lev es) (hH' : G.HighLeft lev es') : es = es' := by
  obtain ⟨e, f, c, a1, a2, a3, a4, a5, a6⟩ := hH
  obtain ⟨e', f', c', b1, b2, b3, b4, b5, b6⟩ := hH'
  rw [← h0, a1] at b1
  cases b1
  have first : ∀ {l : List Side} {f : Side} {c : ℕ × ℕ}, G.IsContour lev l → l[0]? = some e → l[1]? = some f → e ∈ sidesOf c → f ∈ sidesOf c →
      JoinedIn G lev c e f := by
    intro l f c hl l0 l1 s1 s2
    have hj := hl.joined
    rw [List.isChain_iff_getElem] at hj
    obtain ⟨k0, q0⟩ := List.getElem?_eq_some_iff.mp l0
    obtain ⟨k1, q1⟩ := List.getElem?_eq_some_iff.mp l1
    obtain ⟨d, jd⟩ : ∃ d, JoinedIn G lev d l[0] l[1] := hj 0 k1
    rw [q0, q1] at jd
    rw [shared_cell jd.2.2.2.1 s1 s2 jd.2.1 jd.2.2.1]
    exact jd
  have j1 := first h a1 a2 a4 a5
  have j2 := first h' (h0 ▸ a1) b2 b4 b5
  have hcc := leftAbove_unique j1.2.2.2.2.1 a4 b4 a6 b6
  subst hcc
  have := j1.unique j2
  subst this
  exact same_begin h hn h' hn' hl h0 (a2.trans b2.symm)

/-- what is said of a closed line -/
def ClosedAt (G : Grid K) (lev : K) (es : List Side) : Prop := G.HighLeft lev es ∧
    ∃ e, es.head? = some e ∧ G.Start lev e ∧ ∀ f ∈ es, f ≠ e → G.Start lev f → e.Before f

theorem closed_eq {G : Grid K} {lev : K} {es es' : List Side} (h : G.IsContour lev es) (hn : (body es).Nodup) (h' : G.IsContour lev es')
    (hn' : (body es').Nodup) {x : Side} (hx : x ∈ es) (hx' : x ∈ es') (hc : ClosedAt G lev es) (hc' : ClosedAt G lev es') : es = es' := by
  have hs := contour_same h hn h' hn' hx hx'
  have hm := sameLine_mem h.two hs
  obtain ⟨hH, e, e1, e2, e3⟩ := hc
  obtain ⟨hH', f, f1, f2, f3⟩ := hc'
  have hef : e = f := by
    by_contra hne
    have := e3 f ((hm f).mpr (List.mem_of_mem_head? f1)) (Ne.symm hne) f2
    exact before_asymm this (f3 e ((hm e).mp (List.mem_of_mem_head? e1)) hne e2)
  subst hef
  exact highLeft_eq h hn h' hn' hs.1 (by rw [← List.head?_eq_getElem?, ← List.head?_eq_getElem?, e1, f1]) hH hH'

/-- an open line is determined by its first side -/
theorem open_eq {G : Grid K} {lev : K} {es es' : List Side} (h : G.IsContour lev es) (hn : (body es).Nodup) (h' : G.IsContour lev es')
    (hn' : (body es').Nodup) (hop : es.head? ≠ es.getLast?) (hl : es.length = es'.length) (h0 : es[0]? = es'[0]?) : es = es' := by
  have two := h.two
  refine same_begin h hn h' hn' hl h0 ?_
  have hb := h.opened hop
  have j := h.joined
  have j' := h'.joined
  rw [List.isChain_iff_getElem] at j j'
  obtain ⟨a, ja⟩ : ∃ c, JoinedIn G lev c es[0] es[1] := j 0 (by omega)
  obtain ⟨b, jb⟩ : ∃ c, JoinedIn G lev c (es'[0]'(by omega)) (es'[1]'(by omega)) := j' 0 (by omega)
  rw [List.getElem?_eq_getElem (by omega), List.getElem?_eq_getElem (by omega)] at h0 ⊢
  rw [← Option.some.inj h0] at jb
  have : a = b := (hb es[0] (Or.inl (by rw [List.head?_eq_getElem?, List.getElem?_eq_getElem (by omega)]))).unique ⟨ja.1, ja.2.1⟩ ⟨jb.1, jb.2.1⟩
  subst this
  rw [ja.unique jb]

theorem contour_reverse {G : Grid K} {lev : K} {es : List Side} (h : G.IsContour lev es) : G.IsContour lev es.reverse where
  two := by simpa using h.two
  joined := by
    rw [List.isChain_reverse]
    exact h.joined.imp fun _ _ hab => joined_symm hab
  closed hc := by
    rw [List.head?_reverse, List.getLast?_reverse] at hc
    simpa using h.closed hc.symm
  opened hne e he := by
    rw [List.head?_reverse, List.getLast?_reverse] at hne he
    exact h.opened (Ne.symm hne) e he.symm

/-- the two ends of an open line are those of any other with the same sides -/
theorem open_ends {G : Grid K} {lev : K} {es es' : List Side} (h : G.IsContour lev es) (hn : (body es).Nodup) (h' : G.IsContour lev es')
    (hn' : (body es').Nodup) {x : Side} (hx : x ∈ es) (hx' : x ∈ es') (hop : es.head? ≠ es.getLast?) (hop' : es'.head? ≠ es'.getLast?) :
    es' = es ∨ es' = es.reverse := by
  have hs := contour_same h hn h' hn' hx hx'
  have hm := sameLine_mem h.two hs
  have two := h.two
  have two' := h'.two
  -- the first side of `es'` is at the border, so it is an end of `es`
  have hb := h'.opened hop' (es'[0]'(by omega)) (Or.inl (by rw [List.head?_eq_getElem?, List.getElem?_eq_getElem (by omega)]))
  obtain ⟨k, hk, hke⟩ := List.getElem_of_mem ((hm _).mpr (List.getElem_mem (l := es') (n := 0) (by omega)))
  rw [← hke] at hb
  have hends : k = 0 ∨ k = es.length - 1 := by
    by_contra hcon
    push Not at hcon
    obtain ⟨q, rfl⟩ : ∃ q, k = q + 1 := ⟨k - 1, by omega⟩
    have j := h.joined
    rw [List.isChain_iff_getElem] at j
    obtain ⟨a, ja⟩ : ∃ c, JoinedIn G lev c es[q] es[q + 1] := j q (by omega)
    obtain ⟨b, jb⟩ : ∃ c, JoinedIn G lev c es[q + 1] es[q + 2] := j (q + 1) (by omega)
    have : a = b := hb.unique ⟨ja.1, ja.2.2.1⟩ ⟨jb.1, jb.2.1⟩
    subst this
    exact apart h hn (by omega) (ja.symm.unique jb)
  rcases hends with h0 | h0
  · subst h0
    left
    refine (open_eq h hn h' hn' hop hs.1 ?_).symm
    rw [List.getElem?_eq_getElem (by omega), List.getElem?_eq_getElem (by omega), hke]
  · right
    have hnr : (body es.reverse).Nodup := by
      unfold body at hn ⊢
      rw [if_neg hop] at hn
      rw [if_neg (by rw [List.head?_reverse, List.getLast?_reverse]; exact Ne.symm hop)]
      exact List.nodup_reverse.mpr hn
    refine (open_eq (contour_reverse h) hnr h' hn' (by rw [List.head?_reverse, List.getLast?_reverse]; exact Ne.symm hop) (by simpa using hs.1) ?_).symm
    rw [List.getElem?_reverse (by omega), List.getElem?_eq_getElem (by omega), List.getElem?_eq_getElem (by omega), ← hke]
    congr 2
    omega

theorem traced_mem {G : Grid K} {lev : K} {cs cs' : List (List Side)} (h : Traced G lev cs) (h' : Traced G lev cs') {es : List Side}
    (hes : es ∈ cs) : es ∈ cs' := by
  obtain ⟨es', hes', hm, _, hcl, _⟩ := contours_unique h.lines h'.lines hes
  have hc := h.lines.each es hes
  have hc' := h'.lines.each es' hes'
  have hn := contours_nodup h.lines hes
  have hn' := contours_nodup h'.lines hes'
  have two := hc.two
  have hx : es[0] ∈ es := List.getElem_mem (by omega)
  have : es' = es := by
    by_cases hop : es.head? = es.getLast?
    · exact (closed_eq hc hn hc' hn' hx ((hm _).mp hx) (h.closed es hes hop) (h'.closed es' hes' (hcl.mp hop))).symm
    · have hop' : es'.head? ≠ es'.getLast? := fun hh => hop (hcl.mpr hh)
      have hF : ∀ e, (G.First lev es e ↔ G.First lev es' e) := by
        intro e; unfold Grid.First; simp only [hm]
      rcases open_ends hc hn hc' hn' hx ((hm _).mp hx) hop hop' with heq | heq
      · exact heq
      · exfalso
        have hr : es'.reverse = es := by rw [heq, List.reverse_reverse]
        have hh : es'.head? = es.getLast? := by rw [heq, List.head?_reverse]
        have hg : es'.getLast? = es.head? := by rw [heq, List.getLast?_reverse]
        have o := h.opened es hes hop
        have o' := h'.opened es' hes' hop'
        rw [hr, hh, hg] at o'
        rw [← heq] at o
        simp only [← hF] at o'
        rcases o with ⟨a1, a2, e, a3, a4⟩ | ⟨a1, a2, e, a3, a4⟩ <;> rcases o' with ⟨b1, b2, f, b3, b4⟩ | ⟨b1, b2, f, b3, b4⟩
        · exact a2 b1
        · rw [a3] at b3; cases b3; exact a4 b4
        · rw [a3] at b3; cases b3; exact b4 a4
        · exact b2 a1
  rw [← this]
  exact hes'

theorem order_eq {L L' : List (List Side)} (h : L.Pairwise fun es es' => ∃ e e', es.head? = some e ∧ es'.head? = some e' ∧ e.Before e')
    (h' : L'.Pairwise fun es es' => ∃ e e', es.head? = some e ∧ es'.head? = some e' ∧ e.Before e') (hm : ∀ es, es ∈ L ↔ es ∈ L') : L = L' := by
  have asym : ∀ {a b : List Side}, (∃ e e', a.head? = some e ∧ b.head? = some e' ∧ e.Before e') →
      ¬ ∃ e e', b.head? = some e ∧ a.head? = some e' ∧ e.Before e' := by
    rintro a b ⟨e, e', h1, h2, h3⟩ ⟨f, f', g1, g2, g3⟩
    rw [h1] at g2; rw [h2] at g1
    cases g1; cases g2
    exact before_asymm h3 g3
  have nd : ∀ {l : List (List Side)}, l.Pairwise (fun es es' => ∃ e e', es.head? = some e ∧ es'.head? = some e' ∧ e.Before e') → l.Nodup :=
    fun hl => hl.imp fun hab => by rintro rfl; exact asym hab hab
  exact List.Perm.eq_of_pairwise (fun a b _ _ hab hba => absurd hba (asym hab)) h h' ((List.perm_ext_iff_of_nodup (nd h) (nd h')).mpr hm)

/-- the contour lines with their starts, directions and order are unique -/
theorem traced_unique {G : Grid K} {lev : K} {cs cs' : List (List Side)} (h : Traced G lev cs) (h' : Traced G lev cs') : cs = cs' :=
  order_eq h.order h'.order fun _ => ⟨fun hes => traced_mem h h' hes, fun hes => traced_mem h' h hes⟩

/-! ### parts of a map -/
namespace PartOf
variable {H G : Grid K} {i0 j0 : ℕ} (P : PartOf H G i0 j0)
include P

theorem start {lev : K} {e : Side} (h : SideStrict H e) : H.Start lev e ↔ G.Start lev (offSide i0 j0 e) := by
  obtain ⟨i, j, v⟩ := e
  obtain ⟨⟨h1, h2⟩, h3, _⟩ := h
  unfold Grid.Start
  cases v
  · simp [offSide]
  · obtain ⟨h3, h4⟩ := h3 rfl
    simp only [Side.b, if_true] at h1 h2 h3 h4
    have e1 : ∀ a b : ℕ, a < H.nx → b < H.ny → (H.Above lev (a, b) ↔ G.Above lev (i0 + a, j0 + b)) := fun a b ha hb => P.above ha hb
    simp only [offSide, true_and]
    rw [e1 i (j + 1) (by omega) (by omega), e1 i j (by omega) (by omega), e1 (i - 1) (j + 1) (by omega) (by omega),
      e1 (i + 1) (j + 1) (by omega) (by omega), e1 (i + 1) j (by omega) (by omega),
      show i0 + (i - 1) = i0 + i - 1 by omega]
    simp only [← Nat.add_assoc]
    exact ⟨fun h => ⟨by omega, h.2⟩, fun h => ⟨h3, h.2⟩⟩

omit P in
theorem before_off {e f : Side} : (offSide i0 j0 e).Before (offSide i0 j0 f) ↔ e.Before f := by
  unfold Side.Before
  rw [offSide_b, offSide_b]
  simp only [offPt, offSide, Nat.add_lt_add_iff_left, Nat.add_left_cancel_iff]

theorem leftAbove {lev : K} {e : Side} {c : ℕ × ℕ} (h : SideIn H e) : H.LeftAbove lev e c ↔ G.LeftAbove lev (offSide i0 j0 e) (offPt i0 j0 c) := by
  obtain ⟨a1, a2⟩ := sideIn_a h
  unfold Grid.LeftAbove
  rw [offSide_a, offSide_b, ← P.above a1 a2, ← P.above h.1 h.2]
  have : offPt i0 j0 c = offPt i0 j0 e.a ↔ c = e.a := ⟨offPt_inj, fun h => by rw [h]⟩
  rw [this]
  rfl

theorem highLeft {lev : K} {es : List Side} (h : H.HighLeft lev es) : G.HighLeft lev (es.map (offSide i0 j0)) := by
  obtain ⟨e, f, c, h1, h2, h3, h4, h5, h6⟩ := h
  refine ⟨offSide i0 j0 e, offSide i0 j0 f, offPt i0 j0 c, by rw [List.getElem?_map, h1]; rfl, by rw [List.getElem?_map, h2]; rfl, (P.cell.mp h3).1,
    offSide_sides.mpr h4, offSide_sides.mpr h5, (P.leftAbove (side_inside h3 h4).2).mp h6⟩

theorem closedAt {lev : K} {es : List Side} (h : ClosedAt H lev es) (hs : ∀ e ∈ es, SideStrict H e) : ClosedAt G lev (es.map (offSide i0 j0)) := by
  obtain ⟨h1, e, h2, h3, h4⟩ := h
  refine ⟨P.highLeft h1, offSide i0 j0 e, by rw [List.head?_map, h2]; rfl, (P.start (hs e (List.mem_of_mem_head? h2))).mp h3, ?_⟩
  intro f hf hne hst
  obtain ⟨g, hg, rfl⟩ := List.mem_map.1 hf
  exact before_off.mpr (h4 g hg (fun hh => hne (by rw [hh])) ((P.start (hs g hg)).mpr hst))

/-- the strictly inner lines, as lists -/
theorem lists {lev : K} {cs cs' : List (List Side)} (hG : Traced G lev cs) (hH : Traced H lev cs')
    {p q : List Side → Bool} (hp : ∀ es ∈ cs, p es = true → ∀ e ∈ es, ∃ f, e = offSide i0 j0 f ∧ SideStrict H f)
    (hq : ∀ es ∈ cs', q es = true → ∀ e ∈ es, SideStrict H e)
    (hpq : ∀ es ∈ cs, ∀ es' ∈ cs', (∀ e, e ∈ es ↔ e ∈ es'.map (offSide i0 j0)) → p es = q es') :
    cs.filter p = (cs'.filter q).map (List.map (offSide i0 j0)) := by
  have eq : ∀ es ∈ cs, ∀ es' ∈ cs', (∀ e ∈ es', SideStrict H e) → SameLine es (es'.map (offSide i0 j0)) → es = es'.map (offSide i0 j0) := by
    intro es hes es' hes' hs hl
    have c' := hH.lines.each es' hes'
    have cl' := strict_closed P.masked c' hs
    have two := (hG.lines.each es hes).two
    have hx := List.getElem_mem (l := es) (n := 0) (by omega)
    have hm := sameLine_mem two hl
    have cl : es.head? = es.getLast? := by
      apply strict_closed P.masked' (hG.lines.each es hes)
      intro e he
      obtain ⟨g, hg, rfl⟩ := List.mem_map.1 ((hm e).mp he)
      exact P.strict_off (hs g hg)
    refine closed_eq (hG.lines.each es hes) (contours_nodup hG.lines hes) (P.contour c' cl') ?_ hx ((hm _).mp hx) (hG.closed es hes cl)
      (P.closedAt (hH.closed es' hes' cl') hs)
    rw [body_off, nodup_off]; exact contours_nodup hH.lines hes'
  refine order_eq (hG.order.filter p) ?_ fun es => ⟨fun hes => ?_, fun hes => ?_⟩
  · rw [List.pairwise_map]
    refine (hH.order.filter q).imp ?_
    rintro a b ⟨e, e', h1, h2, h3⟩
    exact ⟨_, _, by rw [List.head?_map, h1]; rfl, by rw [List.head?_map, h2]; rfl, before_off.mpr h3⟩
  · obtain ⟨h1, h2⟩ := List.mem_filter.1 hes
    obtain ⟨es', h3, h4⟩ := P.lines_down hG.lines hH.lines h1 (hp es h1 h2)
    have hq' := (hpq es h1 es' h3 (sameLine_mem (hG.lines.each es h1).two h4)) ▸ h2
    rw [List.mem_map]
    exact ⟨es', List.mem_filter.2 ⟨h3, hq'⟩, (eq es h1 es' h3 (hq es' h3 hq') h4).symm⟩
  · obtain ⟨es', hes', rfl⟩ := List.mem_map.1 hes
    obtain ⟨h1, h2⟩ := List.mem_filter.1 hes'
    obtain ⟨es, h3, h4⟩ := P.lines_up hG.lines hH.lines h1 (hq es' h1 h2)
    have := eq es h3 es' h1 (hq es' h1 h2) h4
    rw [← this]
    exact List.mem_filter.2 ⟨h3, (hpq es h3 es' h1 (sameLine_mem (hG.lines.each es h3).two h4)).symm ▸ h2⟩

end PartOf
end Trackeddy.Cntr
