import Verif.Proofs.Cntr.Extract

/-!
The contour lines of a level are unique: any two families of contour lines have the same curves, up to the order of the
curves, their direction and the start of closed ones.
-/
namespace Trackeddy.Cntr
open Trackeddy.Spec

variable {K : Type} [Field K] [LinearOrder K]

/-- a contour line with its sides distinct contains all sides joined to its sides -/
theorem contour_closed {G : Grid K} {lev : K} {es : List Side} (h : G.IsContour lev es) (hn : (body es).Nodup) {e f : Side}
    (he : e ∈ es) (hj : G.Joined lev e f) : Adjacent es e f := by
  obtain ⟨c, hc⟩ : ∃ c, JoinedIn G lev c e f := hj
  obtain ⟨h2, hch, hclosed, hopen⟩ := h
  have hch' := hch
  rw [List.isChain_iff_getElem] at hch
  have step : ∀ (k : Nat) (hk : k + 1 < es.length), ∃ c, JoinedIn G lev c es[k] es[k + 1] := hch
  -- two neighbours through different cells suffice
  have two : ∀ {a b : ℕ × ℕ} {u v : Side}, Adjacent es e u → Adjacent es e v → u ≠ v → JoinedIn G lev a e u → JoinedIn G lev b e v → Adjacent es e f := by
    intro a b u v hu hv huv ja jb
    have hab : a ≠ b := by
      rintro rfl
      exact huv (ja.unique jb)
    rcases two_cells ja.2.1 jb.2.1 hc.2.1 hab with rfl | rfl
    · rw [hc.unique ja]; exact hu
    · rw [hc.unique jb]; exact hv
  -- an end on the border
  have one : ∀ {a : ℕ × ℕ} {u : Side}, Adjacent es e u → G.Border e → JoinedIn G lev a e u → Adjacent es e f := by
    intro a u hu hb ja
    have : c = a := hb.unique ⟨hc.1, hc.2.1⟩ ⟨ja.1, ja.2.1⟩
    subst this
    rw [hc.unique ja]; exact hu
  have hhead : es.head? = some es[0] := by rw [List.head?_eq_getElem?, List.getElem?_eq_getElem (by omega)]
  have hlast : es.getLast? = some es[es.length - 1] := by
    rw [List.getLast?_eq_getElem?, List.getElem?_eq_getElem (by omega)]
  by_cases hcl : es.head? = es.getLast?
  · obtain ⟨a, b, u, v, hu, hv, huv, ja, jb⟩ := closed_two ⟨h2, hch', hclosed, hopen⟩ hn hcl he
    exact two hu hv huv ja jb
  · have hb := hopen hcl
    unfold body at hn
    rw [if_neg hcl] at hn
    obtain ⟨k, hk, hke⟩ := List.getElem_of_mem he
    by_cases hk0 : k = 0
    · subst hk0
      obtain ⟨b, jb⟩ := step 0 (by omega)
      rw [hke] at jb
      have q := adj_next (l := es) (k := 0) (by omega)
      rw [hke] at q
      exact one q (hb e (Or.inl (by rw [hhead, hke]))) jb
    · obtain ⟨a, ja⟩ := step (k - 1) (by omega)
      have e1 : es[k - 1 + 1] = es[k] := by congr 1; omega
      rw [e1, hke] at ja
      have q1 := adj_next (l := es) (k := k - 1) (by omega)
      rw [e1, hke] at q1
      by_cases hkl : k + 1 < es.length
      · obtain ⟨b, jb⟩ := step k hkl
        rw [hke] at jb
        have q2 := adj_next hkl
        rw [hke] at q2
        refine two q1.symm q2 ?_ ja.symm jb
        intro heq
        have := (List.Nodup.getElem_inj_iff hn).mp heq
        omega
      · have hkl' : k = es.length - 1 := by omega
        refine one q1.symm (hb e (Or.inr ?_)) ja.symm
        rw [hlast, ← hke]
        congr 2
        exact hkl'.symm

theorem mem_body {es : List Side} (h : 2 ≤ es.length) {e : Side} : e ∈ body es ↔ e ∈ es := by
  unfold body
  split
  · rename_i hcl
    constructor
    · exact List.mem_of_mem_tail
    · intro he
      obtain ⟨a, l, rfl⟩ : ∃ a l, es = a :: l := by
        cases es with
        | nil => simp at h
        | cons a l => exact ⟨a, l, rfl⟩
      rcases List.mem_cons.mp he with rfl | h'
      · simp only [List.tail_cons]
        simp only [List.head?_cons] at hcl
        cases l with
        | nil => simp at h
        | cons b l => rw [List.getLast?_cons_cons] at hcl; exact List.mem_of_getLast? hcl.symm
      · exact h'
  · rfl

theorem contours_cover {G : Grid K} {lev : K} {cs : List (List Side)} (h : Contours G lev cs) {e : Side} :
    (∃ es ∈ cs, e ∈ es) ↔ G.InMesh e ∧ G.Crossed lev e := by
  rw [← h.all e, List.mem_flatMap]
  constructor
  · rintro ⟨es, h1, h2⟩
    exact ⟨es, h1, (mem_body (h.each es h1).two).mpr h2⟩
  · rintro ⟨es, h1, h2⟩
    exact ⟨es, h1, (mem_body (h.each es h1).two).mp h2⟩

theorem contours_nodup {G : Grid K} {lev : K} {cs : List (List Side)} (h : Contours G lev cs) {es : List Side} (he : es ∈ cs) :
    (body es).Nodup := (List.nodup_flatMap.mp h.once).1 es he

/-- a chain of joined sides stays on a contour line -/
theorem chain_stays {G : Grid K} {lev : K} {es l : List Side} (h : G.IsContour lev es) (hn : (body es).Nodup)
    (hl : l.IsChain (G.Joined lev)) (k : Nat) (hk : k < l.length) (h0 : l[0]'(by omega) ∈ es) : l[k] ∈ es := by
  rw [List.isChain_iff_getElem] at hl
  induction k with
  | zero => exact h0
  | succ k ih => exact (contour_closed h hn (ih (by omega) h0) (hl k hk)).mem.2

/-- every curve of one family is a curve of any other -/
theorem contours_unique {G : Grid K} {lev : K} {cs cs' : List (List Side)} (h : Contours G lev cs) (h' : Contours G lev cs')
    {es : List Side} (hes : es ∈ cs) : ∃ es' ∈ cs', (∀ e, e ∈ es ↔ e ∈ es') ∧ (body es).Perm (body es') ∧
      (es.head? = es.getLast? ↔ es'.head? = es'.getLast?) ∧ (∀ e f, Adjacent es e f ↔ Adjacent es' e f) := by
  have hc := h.each es hes
  have h2 := hc.two
  obtain ⟨es', hes', hm⟩ := (contours_cover h').mpr (contour_sides hc (List.getElem_mem (n := 0) (by omega)))
  have hc' := h'.each es' hes'
  have h2' := hc'.two
  have sub : ∀ e, e ∈ es → e ∈ es' := by
    intro e he
    obtain ⟨k, hk, rfl⟩ := List.getElem_of_mem he
    exact chain_stays hc' (contours_nodup h' hes') hc.joined k hk hm
  have sub' : ∀ e, e ∈ es' → e ∈ es := by
    -- the first side of es' lies on some curve of cs, which is es
    obtain ⟨es2, hes2, hm2⟩ := (contours_cover h).mpr (contour_sides hc' (List.getElem_mem (n := 0) (by omega)))
    have hsub2 : ∀ e, e ∈ es' → e ∈ es2 := by
      intro e he
      obtain ⟨k, hk, rfl⟩ := List.getElem_of_mem he
      exact chain_stays (h.each es2 hes2) (contours_nodup h hes2) hc'.joined k hk hm2
    have hin2 := hsub2 _ hm
    have : es2 = es := by
      by_contra hne
      have hp := (List.nodup_flatMap.mp h.once).2
      have key : ∀ {l : List (List Side)}, l.Pairwise (Function.onFun List.Disjoint body) → ∀ a ∈ l, ∀ b ∈ l, a ≠ b →
          List.Disjoint (body a) (body b) := by
        intro l hl
        induction hl with
        | nil => simp
        | @cons x l hx _ ih =>
          intro a ha b hb hab
          rcases List.mem_cons.mp ha with ha' | ha' <;> rcases List.mem_cons.mp hb with hb' | hb'
          · exact absurd (ha'.trans hb'.symm) hab
          · rw [ha']; exact hx b hb'
          · rw [hb']; exact (hx a ha').symm
          · exact ih a ha' b hb' hab
      exact key hp es2 hes2 es hes hne ((mem_body (h.each es2 hes2).two).mpr hin2)
        ((mem_body h2).mpr (List.getElem_mem (n := 0) (by omega)))
    rw [← this]
    exact hsub2
  have hadj : ∀ {l : List Side}, G.IsContour lev l → ∀ e f, Adjacent l e f → G.Joined lev e f := by
    intro l hl e f hef
    have hch := hl.joined
    rw [List.isChain_iff_getElem] at hch
    obtain ⟨k, ⟨h1, h2⟩ | ⟨h1, h2⟩⟩ := hef <;> obtain ⟨k1, e1⟩ := List.getElem?_eq_some_iff.mp h1 <;>
      obtain ⟨k2, e2⟩ := List.getElem?_eq_some_iff.mp h2 <;> have := hch k k2 <;> rw [e1, e2] at this
    · exact this
    · obtain ⟨c, hc⟩ : ∃ c, JoinedIn G lev c f e := this
      exact ⟨c, hc.symm⟩
  refine ⟨es', hes', fun e => ⟨sub e, sub' e⟩, ?_, ?_, fun e f => ⟨fun hef => ?_, fun hef => ?_⟩⟩
  · rw [List.perm_ext_iff_of_nodup (contours_nodup h hes) (contours_nodup h' hes')]
    intro e
    rw [mem_body h2, mem_body h2']
    exact ⟨sub e, sub' e⟩
  · have hd : ∀ {l : List Side}, 2 ≤ l.length → ∃ x, l.head? = some x ∧ x ∈ l := by
      intro l hl
      exact ⟨l[0], by rw [List.head?_eq_getElem?, List.getElem?_eq_getElem (by omega)], List.getElem_mem _⟩
    constructor
    · intro hcl
      by_contra hop
      obtain ⟨x, hx, hxm⟩ := hd h2'
      exact closed_not_border hc (contours_nodup h hes) hcl (sub' x hxm) (hc'.opened hop x (Or.inl hx))
    · intro hcl
      by_contra hop
      obtain ⟨x, hx, hxm⟩ := hd h2
      exact closed_not_border hc' (contours_nodup h' hes') hcl (sub x hxm) (hc.opened hop x (Or.inl hx))
  · exact contour_closed hc' (contours_nodup h' hes') (sub e hef.mem.1) (hadj hc e f hef)
  · exact contour_closed hc (contours_nodup h hes) (sub' e hef.mem.1) (hadj hc' e f hef)

/-- two lines of the family with a common side are equal -/
theorem line_eq {G : Grid K} {lev : K} {cs : List (List Side)} (h : Contours G lev cs) {l l' : List Side} (hl : l ∈ cs)
    (hl' : l' ∈ cs) {e : Side} (he : e ∈ l) (he' : e ∈ l') : l = l' := by
  by_contra hne
  have hp := (List.nodup_flatMap.mp h.once).2
  have : Std.Symm (Function.onFun List.Disjoint body) := ⟨fun a b hab => hab.symm⟩
  have := hp.forall hl hl' hne
  exact this ((mem_body (h.each l hl).two).mpr he) ((mem_body (h.each l' hl').two).mpr he')

theorem match_perm {α β : Type} {R : α → β → Prop} : ∀ {cs : List α} {cs' : List β}, (∀ a ∈ cs, ∃ b ∈ cs', R a b) →
    (∀ b ∈ cs', ∃ a ∈ cs, R a b) → cs.Pairwise (fun a a' => ∀ b, ¬ (R a b ∧ R a' b)) →
    cs'.Pairwise (fun b b' => ∀ a, ¬ (R a b ∧ R a b')) → ∃ M : List β, M.Perm cs' ∧ List.Forall₂ R cs M
  | [], cs', _, h2, _, _ => by
    cases cs' with
    | nil => exact ⟨[], List.Perm.refl _, List.Forall₂.nil⟩
    | cons b t => obtain ⟨a, ha, _⟩ := h2 b (by simp); simp at ha
  | a :: cs, cs', h1, h2, h3, h4 => by
    obtain ⟨b, hb, hab⟩ := h1 a (by simp)
    obtain ⟨s, t, rfl⟩ := List.append_of_mem hb
    rw [List.pairwise_cons] at h3
    have hp : (s ++ b :: t).Perm (b :: (s ++ t)) := List.perm_middle
    have h4' := (hp.pairwise_iff (fun {x y} hxy a hh => hxy a hh.symm)).mp h4
    rw [List.pairwise_cons] at h4'
    obtain ⟨M, hM, hF⟩ := match_perm (cs := cs) (cs' := s ++ t) (R := R) (fun a' ha' => by
        obtain ⟨b', hb', hr⟩ := h1 a' (by simp [ha'])
        have hb2 := hp.mem_iff.mp hb'
        rcases List.mem_cons.mp hb2 with rfl | hb3
        · exact absurd ⟨hab, hr⟩ (h3.1 a' ha' _)
        · exact ⟨b', hb3, hr⟩) (fun b' hb' => by
        obtain ⟨a', ha', hr⟩ := h2 b' (hp.mem_iff.mpr (List.mem_cons_of_mem _ hb'))
        rcases List.mem_cons.mp ha' with rfl | ha2
        · exact absurd ⟨hab, hr⟩ (h4'.1 b' hb' _)
        · exact ⟨a', ha2, hr⟩) h3.2 h4'.2
    exact ⟨b :: M, (List.Perm.cons b hM).trans hp.symm, List.Forall₂.cons hab hF⟩

theorem contours_same {G : Grid K} {lev : K} {cs cs' : List (List Side)} (h : Contours G lev cs) (h' : Contours G lev cs')
    {es : List Side} (hes : es ∈ cs) : ∃ es' ∈ cs', SameLine es es' := by
  obtain ⟨es', hes', _, hperm, hcl, hadj⟩ := contours_unique h h' hes
  refine ⟨es', hes', ?_, hadj⟩
  have hl := hperm.length_eq
  have h2 := (h.each es hes).two
  have h2' := (h'.each es' hes').two
  unfold body at hl
  by_cases hc : es.head? = es.getLast?
  · rw [if_pos hc, if_pos (hcl.mp hc)] at hl
    simp only [List.length_tail] at hl
    omega
  · rw [if_neg hc, if_neg (fun hh => hc (hcl.mpr hh))] at hl
    exact hl

/-- contour lines are unique up to order, start and direction -/
theorem contours_sameLines {G : Grid K} {lev : K} {cs cs' : List (List Side)} (h : Contours G lev cs) (h' : Contours G lev cs') :
    SameLines cs cs' := by
  have key : ∀ {c c' : List (List Side)}, Contours G lev c → Contours G lev c' → ∀ es ∈ c, ∃ es' ∈ c',
      (∀ e, e ∈ es ↔ e ∈ es') ∧ SameLine es es' := by
    intro c c' hc hc' es hes
    obtain ⟨es', hes', hm, _⟩ := contours_unique hc hc' hes
    obtain ⟨es2, hes2, hs⟩ := contours_same hc hc' hes
    have : es2 = es' := by
      have h2 := (hc.each es hes).two
      have hm2 : ∀ e ∈ es, e ∈ es2 := by
        intro e he
        obtain ⟨k, hk, rfl⟩ := List.getElem_of_mem he
        by_cases hlt : k + 1 < es.length
        · exact ((hs.2 es[k] es[k + 1]).mp ⟨k, Or.inl ⟨List.getElem?_eq_getElem _, List.getElem?_eq_getElem _⟩⟩).mem.1
        · obtain ⟨j, rfl⟩ : ∃ j, k = j + 1 := ⟨k - 1, by omega⟩
          exact ((hs.2 es[j] es[j + 1]).mp ⟨j, Or.inl ⟨List.getElem?_eq_getElem _, List.getElem?_eq_getElem _⟩⟩).mem.2
      have he0 := List.getElem_mem (l := es) (n := 0) (by omega)
      exact line_eq hc' hes2 hes' (hm2 _ he0) ((hm _).mp he0)
    exact ⟨es', hes', hm, this ▸ hs⟩
  have pw : ∀ {c : List (List Side)}, Contours G lev c → c.Pairwise fun a a' => ∀ e, ¬ (e ∈ a ∧ e ∈ a') := by
    intro c hc
    refine (List.nodup_flatMap.mp hc.once).2.imp_of_mem fun {a b} ha hb hd e he => ?_
    exact hd ((mem_body (hc.each a ha).two).mpr he.1) ((mem_body (hc.each b hb).two).mpr he.2)
  have ne : ∀ {c : List (List Side)}, Contours G lev c → ∀ es ∈ c, ∃ e, e ∈ es := fun hc es hes =>
    ⟨_, List.getElem_mem (n := 0) (by have := (hc.each es hes).two; omega)⟩
  obtain ⟨M, hM, hF⟩ := match_perm (R := fun es es' => (∀ e, e ∈ es ↔ e ∈ es') ∧ SameLine es es') (cs := cs) (cs' := cs')
    (key h h') (fun b hb => by
      obtain ⟨a, ha, h1, h2⟩ := key h' h b hb
      exact ⟨a, ha, fun e => (h1 e).symm, h2.1.symm, fun e f => (h2.2 e f).symm⟩)
    ((pw h).imp_of_mem fun {a a'} ha _ hd b hb => by
      obtain ⟨e, he⟩ := ne h a ha
      exact hd e ⟨he, (hb.2.1 e).mpr ((hb.1.1 e).mp he)⟩)
    ((pw h').imp_of_mem fun {b b'} hb _ hd a ha => by
      obtain ⟨e, he⟩ := ne h' b hb
      exact hd e ⟨he, (ha.2.1 e).mp ((ha.1.1 e).mpr he)⟩)
  exact ⟨M, hM, hF.imp fun _ _ hh => hh.2⟩

end Trackeddy.Cntr
