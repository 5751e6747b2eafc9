import Verif.Spec.EddyTable
import Mathlib.Data.List.Induction
import Mathlib.Data.List.Forall2
import Mathlib.Data.List.Nodup

/-! C50, C65: the table of an eddy (trackeddy/eddy.py:41-213). -/
namespace Trackeddy
open Spec
variable {V : Type}

theorem entries_scalar {a : NdArr V} {v : V} (h : IsScalar a v) (prop : String) :
    entries prop a = .ok [(prop, .scalar v)] := by
  obtain ⟨h1, h2⟩ := h
  have : a.squeeze = ⟨[], [v]⟩ := by
    unfold NdArr.squeeze
    rw [h1]
    congr
    rw [List.filter_eq_nil_iff]
    intro n hn; simp [h2 n hn]
  unfold entries
  simp [this]

theorem squeeze_vec {a : NdArr V} {l : List V} (h : IsVec a l) : a.squeeze = ⟨[l.length], l⟩ := by
  unfold NdArr.squeeze
  rw [h.1, h.2]

theorem entries_ellipse {a : NdArr V} {x y z : V} (h : IsVec a [x, y, z]) :
    entries "ellipse_params" a = .ok [("ellipse_params_a", .scalar x), ("ellipse_params_b", .scalar y),
      ("ellipse_params_theta", .scalar z)] := by
  unfold entries
  simp only [squeeze_vec h]
  rfl

theorem entries_center {a : NdArr V} {x y : V} (h : IsVec a [x, y]) :
    entries "contour_center" a = .ok [("contour_x", .scalar x), ("contour_y", .scalar y)] := by
  unfold entries
  simp only [squeeze_vec h]
  rfl

theorem entries_maxima {a : NdArr V} {x y z : V} (h : IsVec a [x, y, z]) :
    entries "eddy_maxima" a = .ok [("maxima", .scalar x), ("maxima_y", .scalar y),
      ("maxima_x", .scalar z)] := by
  unfold entries
  simp only [squeeze_vec h]
  rfl

theorem entries_gauss {a : NdArr V} {x y z u v : V} (h : IsVec a [x, y, z, u, v]) :
    entries "gaussian_params" a = .ok [("gaussian_params_x", .scalar x),
      ("gaussian_params_y", .scalar y), ("gaussian_params_sigma_x", .scalar z),
      ("gaussian_params_sigma_y", .scalar u), ("gaussian_params_theta", .scalar v)] := by
  unfold entries
  simp only [squeeze_vec h]
  rfl

theorem path_get (pts : List (V × V)) (i : Nat) :
    (pts.flatMap fun p => [p.1, p.2])[i * 2 + 0]? = pts[i]?.map Prod.fst ∧
    (pts.flatMap fun p => [p.1, p.2])[i * 2 + 1]? = pts[i]?.map Prod.snd := by
  induction pts generalizing i with
  | nil => simp
  | cons p pts ih =>
    cases i with
    | zero => simp
    | succ i =>
      have := ih i
      rw [show (i + 1) * 2 + 0 = (i * 2 + 0) + 1 + 1 by omega,
        show (i + 1) * 2 + 1 = (i * 2 + 1) + 1 + 1 by omega]
      simpa using this

theorem filterMap_range {β : Type} (l : List β) :
    (List.range l.length).filterMap (fun i => l[i]?) = l := by
  induction l using List.reverseRecOn with
  | nil => rfl
  | append_singleton l a ih =>
    rw [List.length_append, List.length_singleton, List.range_succ, List.filterMap_append]
    congr 1
    · rw [List.filterMap_congr (g := fun i => l[i]?), ih]
      intro i hi
      rw [List.mem_range] at hi
      exact List.getElem?_append_left hi
    · simp

theorem entries_path {a : NdArr V} {pts : List (V × V)} (h : IsPath a pts) (h2 : 2 ≤ pts.length)
    (prop : String) : entries prop a = .ok [("contour_path_x", .column (pts.map Prod.fst)),
      ("contour_path_y", .column (pts.map Prod.snd))] := by
  have hs : a.squeeze = ⟨[pts.length, 2], pts.flatMap fun p => [p.1, p.2]⟩ := by
    unfold NdArr.squeeze
    rw [h.1, h.2]
    congr
    have : pts.length ≠ 1 := by omega
    simp [this]
  unfold entries
  simp only [hs]
  have c0 : NdArr.col ⟨[pts.length, 2], pts.flatMap fun p => [p.1, p.2]⟩ 0 =
      .ok (.column (pts.map Prod.fst)) := by
    unfold NdArr.col
    simp only [Nat.zero_lt_succ, if_true, (path_get pts _).1]
    rw [← filterMap_range (pts.map Prod.fst)]
    simp
  have c1 : NdArr.col ⟨[pts.length, 2], pts.flatMap fun p => [p.1, p.2]⟩ 1 =
      .ok (.column (pts.map Prod.snd)) := by
    unfold NdArr.col
    simp only [Nat.one_lt_succ_succ, if_true, (path_get pts _).2]
    rw [← filterMap_range (pts.map Prod.snd)]
    simp
  rw [c0, c1]
  simp [pure, Except.pure, bind, Except.bind]

theorem range_filterMap_cols (pts : List (V × V)) (f : V × V → List (String × V)) :
    (List.range pts.length).map (fun i => (⟨i, (pts[i]?.map f).getD []⟩ : TRow V)) =
      pts.mapIdx fun i p => ⟨i, f p⟩ := by
  apply List.ext_getElem?
  intro i
  by_cases hi : i < pts.length
  · simp [hi]
  · simp [hi]

theorem dictSet_new {κ β : Type} [DecidableEq κ] {d : List (κ × β)} {k : κ} (v : β)
    (h : k ∉ d.map Prod.fst) : dictSet d k v = d ++ [(k, v)] := by
  unfold dictSet
  rw [if_neg]
  simp only [List.any_eq_true, decide_eq_true_eq, not_exists, not_and]
  rintro e he rfl
  exact h (List.mem_map_of_mem he)

theorem dictSet_fold {κ β : Type} [DecidableEq κ] (es d : List (κ × β))
    (h : ((d ++ es).map Prod.fst).Nodup) :
    es.foldl (fun d e => dictSet d e.1 e.2) d = d ++ es := by
  induction es generalizing d with
  | nil => simp
  | cons e es ih =>
    rw [List.foldl_cons, dictSet_new, ih]
    · simp
    · simpa using h
    · intro hm
      rw [List.map_append, List.map_cons, List.nodup_append] at h
      exact h.2.2 _ hm _ (by simp) rfl

theorem toDict_ok {attr : String → NdArr V} {props : List String}
    {ess : List (List (String × Cell V))}
    (h : List.Forall₂ (fun p es => entries p (attr p) = .ok es) props ess)
    (hn : (ess.flatten.map Prod.fst).Nodup) : toDict attr props = .ok ess.flatten := by
  unfold toDict
  suffices H : ∀ d : List (String × Cell V), ((d ++ ess.flatten).map Prod.fst).Nodup →
      props.foldlM (fun d prop => do
        let es ← entries prop (attr prop)
        return es.foldl (fun d e => dictSet d e.1 e.2) d) d =
        (.ok (d ++ ess.flatten) : Except PyErr _) by
    simpa using H [] (by simpa using hn)
  clear hn
  induction h with
  | nil => intro d _; simp [pure, Except.pure]
  | @cons p es ps ess' h1 _ ih =>
    intro d hd
    rw [List.foldlM_cons, h1]
    have hd' : ((d ++ es ++ ess'.flatten).map Prod.fst).Nodup := by
      simpa [List.append_assoc] using hd
    have h3 : ((d ++ es).map Prod.fst).Nodup := by
      rw [List.map_append, List.nodup_append] at hd'; exact hd'.1
    simp only [bind, Except.bind, pure, Except.pure]
    rw [dictSet_fold es d h3]
    have := ih (d ++ es) hd'
    simp only [bind, Except.bind, pure, Except.pure] at this
    rw [this]
    simp

/-- entries of the Gaussian parameters -/
def gaussEntries (e : EddyData V) : List (String × Cell V) :=
  match e.gauss with
    | .inl v => [("gaussian_params", .scalar v)]
    | .inr (x, y, sx, sy, t) => [("gaussian_params_x", .scalar x), ("gaussian_params_y", .scalar y),
        ("gaussian_params_sigma_x", .scalar sx), ("gaussian_params_sigma_y", .scalar sy),
        ("gaussian_params_theta", .scalar t)]

theorem entries_gauss' {attr : String → NdArr V} {e : EddyData V} (h : Holds attr e) :
    entries "gaussian_params" (attr "gaussian_params") = .ok (gaussEntries e) := by
  have hg := h.gauss
  unfold gaussEntries
  cases hgs : e.gauss with
  | inl v => rw [hgs] at hg; exact entries_scalar hg _
  | inr q =>
    obtain ⟨x, y, sx, sy, t⟩ := q
    rw [hgs] at hg
    exact entries_gauss hg

/-- the dictionary of the default properties -/
theorem toDict_default {attr : String → NdArr V} {e : EddyData V} (h : Holds attr e)
    (h2 : 2 ≤ e.contour.length) (id : V) :
    toDict (fun p => if p = "identifier" then NdArr.scalar id else attr p) defaultProps =
      .ok ([[("identifier", .scalar id)], [("contour_path_x", .column (e.contour.map Prod.fst)),
        ("contour_path_y", .column (e.contour.map Prod.snd))], [("level", .scalar e.level)],
        [("area_eddy", .scalar e.area)], [("radius_eddy", .scalar e.radius)],
        [("ellipse_params_a", .scalar e.ellipseA), ("ellipse_params_b", .scalar e.ellipseB),
          ("ellipse_params_theta", .scalar e.ellipseTheta)],
        [("contour_ellipse_error", .scalar e.ellipseError)],
        [("ellipse_eccen", .scalar e.eccentricity)],
        [("contour_x", .scalar e.centerX), ("contour_y", .scalar e.centerY)],
        [("eddy_sign", .scalar e.sign)],
        [("maxima", .scalar e.maximum), ("maxima_y", .scalar e.maximumY),
          ("maxima_x", .scalar e.maximumX)], gaussEntries e,
        [("contour_gaussian_error", .scalar e.gaussError)]] : List (List (String × Cell V))).flatten := by
  have hid : entries "identifier" (NdArr.scalar id) = .ok [("identifier", .scalar id)] :=
    entries_scalar ⟨rfl, by simp [NdArr.scalar]⟩ _
  have hne : ∀ {p : String} {es : List (String × Cell V)}, p ≠ "identifier" →
      entries p (attr p) = .ok es →
      entries p (if p = "identifier" then NdArr.scalar id else attr p) = .ok es := by
    intro p es hp h; rwa [if_neg hp]
  apply toDict_ok
  · refine .cons (by simpa using hid) <| .cons (hne (by decide) (entries_path h.contour h2 _)) <|
      .cons (hne (by decide) (entries_scalar h.level _)) <|
      .cons (hne (by decide) (entries_scalar h.area _)) <|
      .cons (hne (by decide) (entries_scalar h.radius _)) <|
      .cons (hne (by decide) (entries_ellipse h.ellipse)) <|
      .cons (hne (by decide) (entries_scalar h.ellipseError _)) <|
      .cons (hne (by decide) (entries_scalar h.eccentricity _)) <|
      .cons (hne (by decide) (entries_center h.center)) <|
      .cons (hne (by decide) (entries_scalar h.sign _)) <|
      .cons (hne (by decide) (entries_maxima h.maxima)) <|
      .cons (hne (by decide) (entries_gauss' h)) <|
      .cons (hne (by decide) (entries_scalar h.gaussError _)) .nil
  · unfold gaussEntries
    cases e.gauss with
    | inl v =>
      simp only [List.flatten_cons, List.flatten_nil, List.map_append, List.map_cons, List.map_nil]
      decide +kernel
    | inr q =>
      simp only [List.flatten_cons, List.flatten_nil, List.map_append, List.map_cons, List.map_nil]
      decide +kernel

theorem frame_ok {d : List (String × Cell V)} {n : Nat} {ns : List Nat}
    (h : d.filterMap (fun e => e.2.len?) = n :: ns) (hn : ns.all (· = n) = true) :
    frame d = .ok ((List.range n).map fun i =>
      ⟨i, d.filterMap fun e => (e.2.at i).map fun v => (e.1, v)⟩) := by
  unfold frame
  rw [h]
  simp only [hn, if_true]

/-- **C50** the stored table of an eddy has one row per contour point, numbered 0,1,2,..., with that
point's coordinates and the (constant) properties under their column names. -/
theorem C50_store_table {attr : String → NdArr V} {e : EddyData V} (h : Holds attr e)
    (h2 : 2 ≤ e.contour.length) (id : V) :
    storeTable attr id = .ok (e.contour.mapIdx fun i p => ⟨i, columns e id p⟩) := by
  unfold storeTable toTable
  rw [if_pos rfl, toDict_default h h2 id]
  simp only [bind, Except.bind]
  rw [frame_ok (n := e.contour.length) (ns := [e.contour.length]) _ (by simp)]
  · congr 1
    apply List.ext_getElem?
    intro i
    by_cases hi : i < e.contour.length
    · simp only [List.getElem?_map, List.getElem?_range hi, Option.map_some, List.getElem?_mapIdx,
        List.getElem?_eq_getElem hi]
      have hx : (Cell.column (e.contour.map Prod.fst)).at i = some e.contour[i].1 := by
        simp [Cell.at, hi]
      have hy : (Cell.column (e.contour.map Prod.snd)).at i = some e.contour[i].2 := by
        simp [Cell.at, hi]
      have hs : ∀ v : V, (Cell.scalar v).at i = some v := fun _ => rfl
      congr 2
      unfold columns gaussEntries
      cases e.gauss <;>
      simp only [List.flatten_cons, List.flatten_nil, List.filterMap_append, List.filterMap_cons,
        List.filterMap_nil, List.append_nil, List.nil_append, List.cons_append, hx, hy,
        hs, Option.map_some]
    · rw [List.getElem?_eq_none (by simpa using hi), List.getElem?_eq_none (by simpa using hi)]
  · unfold gaussEntries
    cases e.gauss <;>
    simp only [List.flatten_cons, List.flatten_nil, List.filterMap_append, List.filterMap_cons,
      List.filterMap_nil, Cell.len?, List.append_nil, List.nil_append, List.length_map,
      List.cons_append]

/-- **C50** the column names are distinct. -/
theorem C50_names_distinct (e : EddyData V) (id : V) (p : V × V) :
    ((columns e id p).map Prod.fst).Nodup := by
  unfold columns
  cases e.gauss with
  | inl v => simp only [List.map_append, List.map_cons, List.map_nil]; decide +kernel
  | inr q => simp only [List.map_append, List.map_cons, List.map_nil]; decide +kernel

/-- **C50** in all rows a property other than the contour point has the same value. -/
theorem C50_scalars_constant {attr : String → NdArr V} {e : EddyData V} (h : Holds attr e)
    (h2 : 2 ≤ e.contour.length) (id : V) {t : List (TRow V)} (ht : storeTable attr id = .ok t)
    {r r' : TRow V} (hr : r ∈ t) (hr' : r' ∈ t) {name : String}
    (hx : name ≠ "contour_path_x") (hy : name ≠ "contour_path_y") :
    r.cols.lookup name = r'.cols.lookup name := by
  rw [C50_store_table h h2] at ht
  injection ht with ht
  subst ht
  rw [List.mem_mapIdx] at hr hr'
  obtain ⟨i, _, rfl⟩ := hr
  obtain ⟨i', _, rfl⟩ := hr'
  unfold columns
  have e1 : (name == "contour_path_x") = false := by simpa using hx
  have e2 : (name == "contour_path_y") = false := by simpa using hy
  simp [List.lookup_cons, e1, e2]

/-- A contour of a single point cannot be stored: `ValueError`. (Such contours are skipped as
degenerate, C18.) -/
theorem C50_single_point_raises (attr : String → NdArr V) (id : V) {p : V × V}
    (h : IsPath (attr "contour") [p]) : storeTable attr id = .error .valueError := by
  have h1 : entries "contour" (attr "contour") = .error .valueError := by
    unfold entries NdArr.squeeze
    rw [h.1]
    rfl
  have hid : entries "identifier" (NdArr.scalar id) = .ok [("identifier", .scalar id)] :=
    entries_scalar ⟨rfl, by simp [NdArr.scalar]⟩ _
  unfold storeTable toTable toDict defaultProps
  simp only [List.foldlM_cons, if_true, hid, String.reduceEq, if_false, h1, bind, Except.bind,
    pure, Except.pure]

/-! ### example -/

/-- an eddy with three contour points; `99` stands for `None` -/
def exEddyData : EddyData Nat :=
  ⟨[(1, 10), (2, 20), (3, 30)], 5, 6, 7, 8, 9, 11, 12, 13, 14, 15, 16, 17, 18, 19, .inl 99, 0⟩

/-- its attributes; the maximum is a column vector as made by `np.vstack` -/
def exAttr : String → NdArr Nat
  | "contour" => ⟨[3, 2], [1, 10, 2, 20, 3, 30]⟩
  | "level" => ⟨[], [5]⟩
  | "area_eddy" => ⟨[], [6]⟩
  | "radius_eddy" => ⟨[], [7]⟩
  | "ellipse_params" => ⟨[3], [8, 9, 11]⟩
  | "contour_ellipse_error" => ⟨[], [12]⟩
  | "ellipse_eccen" => ⟨[], [13]⟩
  | "contour_center" => ⟨[2], [14, 15]⟩
  | "eddy_sign" => ⟨[], [16]⟩
  | "eddy_maxima" => ⟨[3, 1], [17, 18, 19]⟩
  | "gaussian_params" => ⟨[], [99]⟩
  | "ellipse" => ⟨[3, 2], [4, 40, 5, 50, 6, 60]⟩
  | _ => ⟨[], [0]⟩

theorem exHolds : Holds exAttr exEddyData where
  contour := ⟨rfl, rfl⟩
  level := ⟨rfl, by simp [exAttr]⟩
  area := ⟨rfl, by simp [exAttr]⟩
  radius := ⟨rfl, by simp [exAttr]⟩
  ellipse := ⟨rfl, by simp [exAttr, exEddyData]⟩
  ellipseError := ⟨rfl, by simp [exAttr]⟩
  eccentricity := ⟨rfl, by simp [exAttr]⟩
  center := ⟨rfl, by simp [exAttr, exEddyData]⟩
  sign := ⟨rfl, by simp [exAttr]⟩
  maxima := ⟨rfl, by simp [exAttr, exEddyData]⟩
  gauss := ⟨rfl, by simp [exAttr]⟩
  gaussError := ⟨rfl, by simp [exAttr]⟩

example : Holds exAttr exEddyData ∧ 2 ≤ exEddyData.contour.length := ⟨exHolds, by decide⟩

/-! ### discarded contours -/

/-- **C50** the table of a discarded contour is one row carrying the reason, whether or not its maximum
was computed before. -/
theorem C50_discarded_row {attr : String → NdArr V} {lev area rad ee ecc cx cy sgn ge : V}
    (h1 : IsScalar (attr "level") lev) (h2 : IsScalar (attr "area_eddy") area)
    (h3 : IsScalar (attr "radius_eddy") rad) (h4 : IsScalar (attr "contour_ellipse_error") ee)
    (h5 : IsVec (attr "contour_center") [cx, cy]) (h6 : IsScalar (attr "ellipse_eccen") ecc)
    (h7 : IsScalar (attr "eddy_sign") sgn) {mx : V ⊕ (V × V × V)}
    (h8 : match mx with
      | .inl v => IsScalar (attr "eddy_maxima") v
      | .inr (m, y, x) => IsVec (attr "eddy_maxima") [m, y, x])
    (h9 : IsScalar (attr "contour_gaussian_error") ge) (reason : V) (id : Nat) :
    discardTable attr reason id = .ok [⟨id,
      [("reason", reason), ("level", lev), ("area_eddy", area), ("radius_eddy", rad),
       ("contour_ellipse_error", ee), ("contour_x", cx), ("contour_y", cy), ("ellipse_eccen", ecc),
       ("eddy_sign", sgn)] ++
      (match mx with
        | .inl v => [("eddy_maxima", v)]
        | .inr (m, y, x) => [("maxima", m), ("maxima_y", y), ("maxima_x", x)]) ++
      [("contour_gaussian_error", ge)]⟩] := by
  have hid : entries "reason" (NdArr.scalar reason) = .ok [("reason", .scalar reason)] :=
    entries_scalar ⟨rfl, by simp [NdArr.scalar]⟩ _
  have hne : ∀ {p : String} {es : List (String × Cell V)}, p ≠ "reason" →
      entries p (attr p) = .ok es →
      entries p (if p = "reason" then NdArr.scalar reason else attr p) = .ok es := by
    intro p es hp h; rwa [if_neg hp]
  have hm : entries "eddy_maxima" (attr "eddy_maxima") = .ok (match mx with
        | .inl v => [("eddy_maxima", .scalar v)]
        | .inr (m, y, x) => [("maxima", .scalar m), ("maxima_y", .scalar y),
            ("maxima_x", .scalar x)]) := by
    cases mx with
    | inl v => exact entries_scalar h8 _
    | inr q => exact entries_maxima h8
  have hd : toDict (fun p => if p = "reason" then NdArr.scalar reason else attr p) discardProps = _ :=
    toDict_ok (.cons (by simpa using hid) <|
      .cons (hne (by decide) (entries_scalar h1 _)) <|
      .cons (hne (by decide) (entries_scalar h2 _)) <|
      .cons (hne (by decide) (entries_scalar h3 _)) <|
      .cons (hne (by decide) (entries_scalar h4 _)) <|
      .cons (hne (by decide) (entries_center h5)) <|
      .cons (hne (by decide) (entries_scalar h6 _)) <|
      .cons (hne (by decide) (entries_scalar h7 _)) <|
      .cons (hne (by decide) hm) <|
      .cons (hne (by decide) (entries_scalar h9 _)) .nil) (by
        cases mx <;>
        simp only [List.flatten_cons, List.flatten_nil, List.map_append, List.map_cons,
          List.map_nil] <;>
        decide +kernel)
  unfold discardTable
  rw [hd]
  cases mx <;> simp [bind, Except.bind, Cell.len?, Cell.at]

/-- a contour discarded before its maximum was computed -/
example : discardTable (fun p => if p = "eddy_maxima" then ⟨[], [0]⟩ else exAttr p) 77 4 = .ok [⟨4,
    [("reason", 77), ("level", 5), ("area_eddy", 6), ("radius_eddy", 7), ("contour_ellipse_error", 12),
     ("contour_x", 14), ("contour_y", 15), ("ellipse_eccen", 13), ("eddy_sign", 16),
     ("eddy_maxima", 0), ("contour_gaussian_error", 0)]⟩] := by decide +kernel

/-! ### C65 -/

/-- **C65** is false: when the contour and the fitted ellipse are both requested, both go to the columns
`contour_path_x` and `contour_path_y`, the later one overwrites the earlier one. -/
theorem C65_refuted {attr : String → NdArr V} {pts ell : List (V × V)}
    (h1 : IsPath (attr "contour") pts) (h2 : IsPath (attr "ellipse") ell) (hp : 2 ≤ pts.length)
    (he : 2 ≤ ell.length) :
    toTable attr ["contour", "ellipse"] = toTable attr ["ellipse"] := by
  unfold toTable toDict
  simp only [List.cons_ne_nil, if_false, List.foldlM_cons, List.foldlM_nil, entries_path h1 hp,
    entries_path h2 he, bind, Except.bind, pure, Except.pure, List.foldl_cons, List.foldl_nil]
  rfl

example : toTable exAttr ["contour", "ellipse"] = .ok
    [⟨0, [("contour_path_x", 4), ("contour_path_y", 40)]⟩,
     ⟨1, [("contour_path_x", 5), ("contour_path_y", 50)]⟩,
     ⟨2, [("contour_path_x", 6), ("contour_path_y", 60)]⟩] := by decide +kernel

/-- **C65, partial**: if the requested properties contribute distinct column names, each is in the
dictionary with its value. Missing: several contour-like properties (false, see `C65_refuted`). -/
theorem C65_partial {attr : String → NdArr V} {props : List String}
    {ess : List (List (String × Cell V))}
    (h : List.Forall₂ (fun p es => entries p (attr p) = .ok es) props ess)
    (hn : (ess.flatten.map Prod.fst).Nodup) {es : List (String × Cell V)} (he : es ∈ ess)
    {name : String} {c : Cell V} (hc : (name, c) ∈ es) :
    ∃ d, toDict attr props = .ok d ∧ d.lookup name = some c := by
  refine ⟨_, toDict_ok h hn, ?_⟩
  have hmem : (name, c) ∈ ess.flatten := List.mem_flatten.2 ⟨es, he, hc⟩
  generalize ess.flatten = l at hn hmem
  clear h he hc
  induction l with
  | nil => simp at hmem
  | cons a l ih =>
    rw [List.map_cons, List.nodup_cons] at hn
    rcases List.mem_cons.1 hmem with rfl | hm
    · simp
    · have : (name == a.1) = false := by
        simp only [beq_eq_false_iff_ne, ne_eq]
        rintro rfl
        exact hn.1 (List.mem_map.2 ⟨_, hm, rfl⟩)
      rw [List.lookup_cons, this]
      exact ih hn.2 hm

example : List.Forall₂ (fun p es => entries p (exAttr p) = .ok es) ["level", "contour_center"]
    [[("level", .scalar 5)], [("contour_x", .scalar 14), ("contour_y", .scalar 15)]] :=
  .cons (by decide +kernel) (.cons (by decide +kernel) .nil)

end Trackeddy
