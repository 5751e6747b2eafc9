import Verif.Model.Coords

/-!
C44 (identification by name), C45 (only coordinates), C46 (coordinate grids), C70 (dimension order).
-/
namespace Trackeddy

/-- how a name is recognised: time before longitude before latitude -/
def LooksTime (n : String) : Prop := (∃ a b, n.toList = a ++ "time".toList ++ b) ∨ n = "t"
@[inherit_doc LooksTime] def LooksLon (n : String) : Prop := (∃ a b, n.toList = a ++ "lon".toList ++ b) ∨ n = "x"
@[inherit_doc LooksTime] def LooksLat (n : String) : Prop := (∃ a b, n.toList = a ++ "lat".toList ++ b) ∨ n = "y"

theorem hasSub_iff {s n : String} : hasSub s n = true ↔ ∃ a b, n.toList = a ++ s.toList ++ b := by
  unfold hasSub
  rw [decide_eq_true_eq]
  constructor
  · rintro ⟨a, b, h⟩; exact ⟨a, b, h.symm⟩
  · rintro ⟨a, b, h⟩; exact ⟨a, b, h.symm⟩

theorem time_iff {n : String} : (hasSub "time" n || n == "t") = true ↔ LooksTime n := by
  rw [Bool.or_eq_true, hasSub_iff, beq_iff_eq]; rfl
theorem lon_iff {n : String} : (hasSub "lon" n || n == "x") = true ↔ LooksLon n := by
  rw [Bool.or_eq_true, hasSub_iff, beq_iff_eq]; rfl
theorem lat_iff {n : String} : (hasSub "lat" n || n == "y") = true ↔ LooksLat n := by
  rw [Bool.or_eq_true, hasSub_iff, beq_iff_eq]; rfl

/-- role of a dimension name -/
inductive Role | time | lon | lat

def IsDim : Role → String → Prop
  | .time, n => LooksTime n
  | .lon, n => ¬ LooksTime n ∧ LooksLon n
  | .lat, n => ¬ LooksTime n ∧ ¬ LooksLon n ∧ LooksLat n

def IsVar : Role → String → Prop
  | .time, _ => False
  | .lon, n => LooksLon n
  | .lat, n => ¬ LooksLon n ∧ LooksLat n

def Coords.dim (c : Coords) : Role → String
  | .time => c.time
  | .lon => c.x
  | .lat => c.y

theorem getDims_dim (c : Coords) (d : String) (r : Role) :
    (IsDim r d → (getDims c d).dim r = d) ∧ (¬ IsDim r d → (getDims c d).dim r = c.dim r) ∧
    (getDims c d).xVar = c.xVar ∧ (getDims c d).yVar = c.yVar := by
  unfold getDims
  by_cases h1 : LooksTime d
  · rw [if_pos (time_iff.mpr h1)]
    cases r <;> simp_all [IsDim, Coords.dim]
  · rw [if_neg (fun h => h1 (time_iff.mp h))]
    by_cases h2 : LooksLon d
    · rw [if_pos (lon_iff.mpr h2)]
      cases r <;> simp_all [IsDim, Coords.dim]
    · rw [if_neg (fun h => h2 (lon_iff.mp h))]
      by_cases h3 : LooksLat d
      · rw [if_pos (lat_iff.mpr h3)]
        cases r <;> simp_all [IsDim, Coords.dim]
      · rw [if_neg (fun h => h3 (lat_iff.mp h))]
        cases r <;> simp_all [IsDim, Coords.dim]

theorem getVars_dim (c : Coords) (d : String) (r : Role) : (getVars c d).dim r = c.dim r := by
  unfold getVars
  split
  · cases r <;> rfl
  · split
    · cases r <;> rfl
    · rfl

theorem foldVars_dim (vars : List String) (c : Coords) (r : Role) : (vars.foldl getVars c).dim r = c.dim r := by
  induction vars generalizing c with
  | nil => rfl
  | cons v vs ih => rw [List.foldl_cons, ih, getVars_dim]

theorem foldDims_none (dims : List String) (c : Coords) (r : Role) (h : ∀ d ∈ dims, ¬ IsDim r d) :
    (dims.foldl getDims c).dim r = c.dim r := by
  induction dims generalizing c with
  | nil => rfl
  | cons d ds ih =>
    rw [List.foldl_cons, ih _ fun x hx => h x (by simp [hx])]
    exact (getDims_dim c d r).2.1 (h d (by simp))

theorem foldDims_unique (dims : List String) (c : Coords) (r : Role) (n : String) (hn : n ∈ dims) (hr : IsDim r n)
    (hu : ∀ d ∈ dims, IsDim r d → d = n) : (dims.foldl getDims c).dim r = n := by
  induction dims generalizing c with
  | nil => simp at hn
  | cons d ds ih =>
    rw [List.foldl_cons]
    by_cases hmem : n ∈ ds
    · exact ih _ hmem fun x hx => hu x (by simp [hx])
    · have hd : d = n := by
        rcases List.mem_cons.mp hn with h | h
        · exact h.symm
        · exact absurd h hmem
      subst hd
      rw [foldDims_none ds _ r fun x hx hx' => hmem (hu x (by simp [hx]) hx' ▸ hx)]
      exact (getDims_dim c d r).1 hr

/-- C44: if exactly one name among the dimensions is recognised for a role, it is the one used for that role,
in whatever order the dimensions come and whatever other names there are. -/
theorem C44_unique (dims vars : List String) (r : Role) (n : String) (hn : n ∈ dims) (hr : IsDim r n)
    (hu : ∀ d ∈ dims, IsDim r d → d = n) : (identifyCoords dims vars).dim r = n := by
  unfold identifyCoords
  rw [foldVars_dim]
  exact foldDims_unique dims _ r n hn hr hu

/-- C44: a role without a recognised dimension is left empty. -/
theorem C44_absent (dims vars : List String) (r : Role) (h : ∀ d ∈ dims, ¬ IsDim r d) :
    (identifyCoords dims vars).dim r = "" := by
  unfold identifyCoords
  rw [foldVars_dim, foldDims_none dims _ r h]
  cases r <;> rfl

theorem dim_ne_empty (r : Role) : ¬ IsDim r "" := by
  have aux : ∀ s : String, s.toList ≠ [] → ¬ ∃ a b, "".toList = a ++ s.toList ++ b := by
    rintro s hs ⟨a, b, h⟩
    have : a ++ s.toList ++ b = [] := h.symm
    simp only [List.append_eq_nil_iff] at this
    exact hs this.1.2
  cases r with
  | time =>
    rintro (h | h)
    · exact aux "time" (by decide) h
    · exact absurd h (by decide)
  | lon =>
    rintro ⟨_, h | h⟩
    · exact aux "lon" (by decide) h
    · exact absurd h (by decide)
  | lat =>
    rintro ⟨_, _, h | h⟩
    · exact aux "lat" (by decide) h
    · exact absurd h (by decide)

theorem foldDims_some (dims : List String) (c : Coords) (r : Role) (h : ∃ d ∈ dims, IsDim r d) :
    IsDim r ((dims.foldl getDims c).dim r) ∧ (dims.foldl getDims c).dim r ∈ dims := by
  induction dims generalizing c with
  | nil => simp at h
  | cons d ds ih =>
    rw [List.foldl_cons]
    by_cases hds : ∃ x ∈ ds, IsDim r x
    · obtain ⟨h1, h2⟩ := ih (getDims c d) hds
      exact ⟨h1, List.mem_cons_of_mem _ h2⟩
    · have hd : IsDim r d := by
        obtain ⟨x, hx, hxr⟩ := h
        rcases List.mem_cons.mp hx with rfl | hx
        · exact hxr
        · exact absurd ⟨x, hx, hxr⟩ hds
      rw [foldDims_none ds _ r fun x hx hxr => hds ⟨x, hx, hxr⟩, (getDims_dim c d r).1 hd]
      exact ⟨hd, by simp⟩

theorem foldDims_vars (dims : List String) (c : Coords) :
    (dims.foldl getDims c).xVar = c.xVar ∧ (dims.foldl getDims c).yVar = c.yVar := by
  induction dims generalizing c with
  | nil => exact ⟨rfl, rfl⟩
  | cons d ds ih =>
    rw [List.foldl_cons]
    obtain ⟨h1, h2⟩ := ih (getDims c d)
    rw [h1, h2]
    exact (getDims_dim c d .lon).2.2

theorem getVars_var (c : Coords) (v : String) :
    (getVars c v).xVar = (open Classical in if IsVar .lon v then some v else c.xVar) ∧
    (getVars c v).yVar = (open Classical in if IsVar .lat v then some v else c.yVar) := by
  unfold getVars
  by_cases h1 : LooksLon v
  · rw [if_pos (lon_iff.mpr h1)]
    simp [IsVar, h1]
  · rw [if_neg (fun h => h1 (lon_iff.mp h))]
    by_cases h2 : LooksLat v
    · rw [if_pos (lat_iff.mpr h2)]
      simp [IsVar, h1, h2]
    · rw [if_neg (fun h => h2 (lat_iff.mp h))]
      simp [IsVar, h1, h2]

theorem foldVars_x (vars : List String) (c : Coords) :
    ((∀ v ∈ vars, ¬ IsVar .lon v) → (vars.foldl getVars c).xVar = c.xVar) ∧
    ((∃ v ∈ vars, IsVar .lon v) → ∃ v ∈ vars, IsVar .lon v ∧ (vars.foldl getVars c).xVar = some v) ∧
    ((∀ v ∈ vars, ¬ IsVar .lat v) → (vars.foldl getVars c).yVar = c.yVar) ∧
    ((∃ v ∈ vars, IsVar .lat v) → ∃ v ∈ vars, IsVar .lat v ∧ (vars.foldl getVars c).yVar = some v) := by
  induction vars generalizing c with
  | nil => simp
  | cons v vs ih =>
    obtain ⟨i1, i2, i3, i4⟩ := ih (getVars c v)
    obtain ⟨g1, g2⟩ := getVars_var c v
    simp only [List.foldl_cons]
    refine ⟨fun h => ?_, fun h => ?_, fun h => ?_, fun h => ?_⟩
    · rw [i1 fun x hx => h x (by simp [hx]), g1, if_neg (h v (by simp))]
    · by_cases hvs : ∃ x ∈ vs, IsVar .lon x
      · obtain ⟨x, hx, hxr, he⟩ := i2 hvs
        exact ⟨x, by simp [hx], hxr, he⟩
      · have hv : IsVar .lon v := by
          obtain ⟨x, hx, hxr⟩ := h
          rcases List.mem_cons.mp hx with rfl | hx
          · exact hxr
          · exact absurd ⟨x, hx, hxr⟩ hvs
        exact ⟨v, by simp, hv, by rw [i1 fun x hx hxr => hvs ⟨x, hx, hxr⟩, g1, if_pos hv]⟩
    · rw [i3 fun x hx => h x (by simp [hx]), g2, if_neg (h v (by simp))]
    · by_cases hvs : ∃ x ∈ vs, IsVar .lat x
      · obtain ⟨x, hx, hxr, he⟩ := i4 hvs
        exact ⟨x, by simp [hx], hxr, he⟩
      · have hv : IsVar .lat v := by
          obtain ⟨x, hx, hxr⟩ := h
          rcases List.mem_cons.mp hx with rfl | hx
          · exact hxr
          · exact absurd ⟨x, hx, hxr⟩ hvs
        exact ⟨v, by simp, hv, by rw [i3 fun x hx hxr => hvs ⟨x, hx, hxr⟩, g2, if_pos hv]⟩

/-- C44: the dataset is accepted iff a longitude and a latitude are recognised, both among the data variables
or both among the dimensions; otherwise `ValueError` is raised. -/
theorem C44_rejected_iff (dims vars : List String) :
    ((∃ p, chooseCoords (identifyCoords dims vars) = .ok p) ↔
      ((∃ v ∈ vars, IsVar .lon v) ∧ ∃ v ∈ vars, IsVar .lat v) ∨
      ((∃ d ∈ dims, IsDim .lon d) ∧ ∃ d ∈ dims, IsDim .lat d)) ∧
    ((¬ ∃ p, chooseCoords (identifyCoords dims vars) = .ok p) →
      chooseCoords (identifyCoords dims vars) = .error .valueError) := by
  set c0 := dims.foldl getDims ⟨"", "", "", none, none⟩ with hc0
  have hv0 := foldDims_vars dims ⟨"", "", "", none, none⟩
  rw [← hc0] at hv0
  obtain ⟨f1, f2, f3, f4⟩ := foldVars_x vars c0
  have hx := foldVars_dim vars c0 .lon
  have hy := foldVars_dim vars c0 .lat
  have hid : identifyCoords dims vars = vars.foldl getVars c0 := rfl
  rw [hid]
  set c := vars.foldl getVars c0 with hc
  have dimx : c.x ≠ "" ↔ ∃ d ∈ dims, IsDim .lon d := by
    have e : c.x = (dims.foldl getDims ⟨"", "", "", none, none⟩).dim .lon := hx
    rw [e]
    constructor
    · intro hne
      by_contra hno
      apply hne
      rw [foldDims_none dims _ .lon fun d hd hr => hno ⟨d, hd, hr⟩]; rfl
    · intro hs he
      have := (foldDims_some dims ⟨"", "", "", none, none⟩ .lon hs).1
      rw [he] at this
      exact dim_ne_empty _ this
  have dimy : c.y ≠ "" ↔ ∃ d ∈ dims, IsDim .lat d := by
    have e : c.y = (dims.foldl getDims ⟨"", "", "", none, none⟩).dim .lat := hy
    rw [e]
    constructor
    · intro hne
      by_contra hno
      apply hne
      rw [foldDims_none dims _ .lat fun d hd hr => hno ⟨d, hd, hr⟩]; rfl
    · intro hs he
      have := (foldDims_some dims ⟨"", "", "", none, none⟩ .lat hs).1
      rw [he] at this
      exact dim_ne_empty _ this
  have varx : c.xVar ≠ none ↔ ∃ v ∈ vars, IsVar .lon v := by
    constructor
    · intro hne
      by_contra hno
      exact hne ((f1 fun v hv hr => hno ⟨v, hv, hr⟩).trans hv0.1)
    · intro hs
      obtain ⟨v, _, _, he⟩ := f2 hs
      rw [he]; simp
  have vary : c.yVar ≠ none ↔ ∃ v ∈ vars, IsVar .lat v := by
    constructor
    · intro hne
      by_contra hno
      exact hne ((f3 fun v hv hr => hno ⟨v, hv, hr⟩).trans hv0.2)
    · intro hs
      obtain ⟨v, _, _, he⟩ := f4 hs
      rw [he]; simp
  rw [← dimx, ← dimy, ← varx, ← vary]
  clear dimx dimy varx vary hc hid hx hy f1 f2 f3 f4 hv0
  clear_value c
  unfold chooseCoords
  obtain ⟨t, x, y, xv, yv⟩ := c
  cases xv <;> cases yv <;> simp only [ne_eq, not_true_eq_false, reduceCtorEq, not_false_eq_true, false_and, and_false,
    and_true, true_and, false_or, true_or, iff_true] <;> (try split) <;> simp_all <;> tauto

/-- C44: when the data variables contain no longitude/latitude pair, the names used for the grid are those of
the unique recognised dimensions. -/
theorem C44_grid_names (dims vars : List String) (lon lat : String) (hlon : lon ∈ dims) (hlat : lat ∈ dims)
    (h1 : IsDim .lon lon) (h2 : IsDim .lat lat) (u1 : ∀ d ∈ dims, IsDim .lon d → d = lon)
    (u2 : ∀ d ∈ dims, IsDim .lat d → d = lat)
    (hv : (∀ v ∈ vars, ¬ IsVar .lon v) ∨ ∀ v ∈ vars, ¬ IsVar .lat v) :
    chooseCoords (identifyCoords dims vars) = .ok (lon, lat) := by
  have ex : (identifyCoords dims vars).x = lon := C44_unique dims vars .lon lon hlon h1 u1
  have ey : (identifyCoords dims vars).y = lat := C44_unique dims vars .lat lat hlat h2 u2
  have hv0 := foldDims_vars dims ⟨"", "", "", none, none⟩
  obtain ⟨f1, _, f3, _⟩ := foldVars_x vars (dims.foldl getDims ⟨"", "", "", none, none⟩)
  have hn : (identifyCoords dims vars).xVar = none ∨ (identifyCoords dims vars).yVar = none := by
    rcases hv with h | h
    · exact Or.inl ((f1 h).trans hv0.1)
    · exact Or.inr ((f3 h).trans hv0.2)
  have nx : lon ≠ "" := fun e => dim_ne_empty .lon (e ▸ h1)
  have ny : lat ≠ "" := fun e => dim_ne_empty .lat (e ▸ h2)
  unfold chooseCoords
  rcases hn with h | h
  · rw [h, ex, ey]; simp [nx, ny]
  · rw [h, ex, ey]
    cases (identifyCoords dims vars).xVar <;> simp [nx, ny]

/-- C44: with one data variable that looks like a longitude and one that looks like a latitude, these are used, in this order,
whatever the dimensions. -/
theorem C44_grid_variables (dims vars : List String) (lon lat : String) (hlon : lon ∈ vars) (hlat : lat ∈ vars)
    (h1 : IsVar .lon lon) (h2 : IsVar .lat lat) (u1 : ∀ v ∈ vars, IsVar .lon v → v = lon) (u2 : ∀ v ∈ vars, IsVar .lat v → v = lat) :
    chooseCoords (identifyCoords dims vars) = .ok (lon, lat) := by
  obtain ⟨_, f2, _, f4⟩ := foldVars_x vars (dims.foldl getDims ⟨"", "", "", none, none⟩)
  obtain ⟨x, hx, hx1, hx2⟩ := f2 ⟨lon, hlon, h1⟩
  obtain ⟨y, hy, hy1, hy2⟩ := f4 ⟨lat, hlat, h2⟩
  have ex : (identifyCoords dims vars).xVar = some lon := (u1 x hx hx1) ▸ hx2
  have ey : (identifyCoords dims vars).yVar = some lat := (u2 y hy hy1) ▸ hy2
  unfold chooseCoords
  rw [ex, ey]

/-- C44: the order of the dimensions does not matter. -/
theorem C44_permutation (dims dims' vars : List String) (hp : dims.Perm dims') (r : Role)
    (hu : ∀ d ∈ dims, ∀ d' ∈ dims, IsDim r d → IsDim r d' → d = d') :
    (identifyCoords dims vars).dim r = (identifyCoords dims' vars).dim r := by
  by_cases h : ∃ n ∈ dims, IsDim r n
  · obtain ⟨n, hn, hr⟩ := h
    rw [C44_unique dims vars r n hn hr fun d hd hdr => hu d hd n hn hdr hr]
    rw [C44_unique dims' vars r n (hp.mem_iff.mp hn) hr fun d hd hdr => hu d (hp.mem_iff.mpr hd) n hn hdr hr]
  · rw [C44_absent dims vars r fun d hd hr => h ⟨d, hd, hr⟩,
      C44_absent dims' vars r fun d hd hr => h ⟨d, hp.mem_iff.mpr hd, hr⟩]

/-- the usual names are recognised in any order -/
example : identifyCoords ["longitude", "time", "latitude"] ["ssh"] =
    ⟨"time", "longitude", "latitude", none, none⟩ := by decide +kernel

example : identifyCoords ["yt_ocean", "xt_ocean"] ["ssh"] = ⟨"", "", "", none, none⟩ := by decide +kernel

/-! ### C45 -/

/-- C45 is false: in a dataset with longitude and latitude dimensions and two heat fluxes, the fluxes are taken
for the coordinates of the grid. -/
theorem C45_refuted : chooseCoords (identifyCoords ["lat", "lon"] ["ssh", "longwave_flux", "latent_heat_flux"])
    = .ok ("longwave_flux", "latent_heat_flux") := by decide +kernel

/-- C45, positive part: a name used for the grid is that of a recognised dimension or a data variable whose
name contains the letters `lon` or `lat` or is `x` or `y`. Missing: such a variable need not be a
coordinate. -/
theorem C45_partial (dims vars : List String) (p : String × String)
    (h : chooseCoords (identifyCoords dims vars) = .ok p) :
    ((p.1 ∈ dims ∧ IsDim .lon p.1) ∨ (p.1 ∈ vars ∧ IsVar .lon p.1)) ∧
    ((p.2 ∈ dims ∧ IsDim .lat p.2) ∨ (p.2 ∈ vars ∧ IsVar .lat p.2)) := by
  set c0 := dims.foldl getDims ⟨"", "", "", none, none⟩ with hc0
  have hv0 := foldDims_vars dims ⟨"", "", "", none, none⟩
  rw [← hc0] at hv0
  obtain ⟨f1, f2, f3, f4⟩ := foldVars_x vars c0
  have hx := foldVars_dim vars c0 .lon
  have hy := foldVars_dim vars c0 .lat
  have hid : identifyCoords dims vars = vars.foldl getVars c0 := rfl
  rw [hid] at h
  have key : ∀ r, c0.dim r ≠ "" → c0.dim r ∈ dims ∧ IsDim r (c0.dim r) := by
    intro r hne
    by_cases hs : ∃ d ∈ dims, IsDim r d
    · exact (foldDims_some dims _ r hs).symm
    · exfalso; apply hne
      rw [hc0, foldDims_none dims _ r fun d hd hr => hs ⟨d, hd, hr⟩]
      cases r <;> rfl
  unfold chooseCoords at h
  split at h
  · rename_i x y ex ey
    injection h with h
    subst h
    constructor
    · right
      by_cases hs : ∃ v ∈ vars, IsVar .lon v
      · obtain ⟨v, hv, hr, he⟩ := f2 hs
        rw [he] at ex; injection ex with ex; subst ex; exact ⟨hv, hr⟩
      · rw [f1 fun v hv hr => hs ⟨v, hv, hr⟩, hv0.1] at ex; simp at ex
    · right
      by_cases hs : ∃ v ∈ vars, IsVar .lat v
      · obtain ⟨v, hv, hr, he⟩ := f4 hs
        rw [he] at ey; injection ey with ey; subst ey; exact ⟨hv, hr⟩
      · rw [f3 fun v hv hr => hs ⟨v, hv, hr⟩, hv0.2] at ey; simp at ey
  · split at h
    · rename_i hne
      injection h with h
      subst h
      have ex : (vars.foldl getVars c0).x = c0.dim .lon := hx
      have ey : (vars.foldl getVars c0).y = c0.dim .lat := hy
      rw [ex, ey] at hne
      simp only [ex, ey]
      exact ⟨Or.inl (key .lon hne.1), Or.inl (key .lat hne.2)⟩
    · simp at h

/-! ### C46 -/

/-- C46: one-dimensional coordinates: the grids have one row per latitude and one column per longitude, and
entry (j, i) holds longitude i and latitude j. -/
theorem C46_rectilinear {K : Type} (x y : List K) : ∃ X Y, coordGrids (.d1 x) (.d1 y) = .ok (X, Y) ∧
    X.length = y.length ∧ Y.length = y.length ∧ (∀ row ∈ X, row.length = x.length) ∧
    (∀ row ∈ Y, row.length = x.length) ∧
    ∀ j i, j < y.length → i < x.length → at2 X j i = x[i]? ∧ at2 Y j i = y[j]? := by
  refine ⟨_, _, rfl, by simp, by simp, ?_, ?_, ?_⟩
  · intro row hr
    obtain ⟨_, _, rfl⟩ := List.mem_map.mp hr
    rfl
  · intro row hr
    obtain ⟨_, _, rfl⟩ := List.mem_map.mp hr
    simp
  · intro j i hj hi
    unfold at2
    simp [List.getElem?_eq_getElem, hj, hi]

/-- C46: two-dimensional coordinates are used as they are; anything else is rejected. -/
theorem C46_other {K : Type} (a b : CoordArr K) :
    (∀ x y, a = .d2 x → b = .d2 y → coordGrids a b = .ok (x, y)) ∧
    ((∃ r, coordGrids a b = .ok r) ↔ (∃ x y, a = .d1 x ∧ b = .d1 y) ∨ ∃ x y, a = .d2 x ∧ b = .d2 y) ∧
    ((¬ ∃ r, coordGrids a b = .ok r) → coordGrids a b = .error .valueError) := by
  refine ⟨?_, ?_, ?_⟩
  · rintro x y rfl rfl; rfl
  · cases a <;> cases b <;> simp [coordGrids]
  · cases a <;> cases b <;> simp [coordGrids]

/-! ### C70 -/

/-- order of the two horizontal dimensions of the data -/
inductive DimOrder | latLon | lonLat

/-- (longitude, latitude) of entry (a, b) of the data array -/
def labelOf {K : Type} (x y : List K) : DimOrder → Nat → Nat → Option (K × K)
  | .latLon, a, b => x[b]?.bind fun lon => y[a]?.map fun lat => (lon, lat)
  | .lonLat, a, b => x[a]?.bind fun lon => y[b]?.map fun lat => (lon, lat)

/-- (longitude, latitude) that the tracker attaches to entry (a, b) of the data array -/
def attached {K : Type} (X Y : List (List K)) (a b : Nat) : Option (K × K) :=
  (at2 X a b).bind fun lon => (at2 Y a b).map fun lat => (lon, lat)

/-- C70, positive part: data stored latitude first get the coordinates of their points. -/
theorem C70_partial {K : Type} (x y : List K) (X Y : List (List K)) (h : coordGrids (.d1 x) (.d1 y) = .ok (X, Y))
    (a b : Nat) : attached X Y a b = labelOf x y .latLon a b := by
  simp only [coordGrids, meshgrid, Except.ok.injEq, Prod.mk.injEq] at h
  obtain ⟨rfl, rfl⟩ := h
  unfold attached labelOf at2
  by_cases ha : a < y.length
  · by_cases hb : b < x.length
    · simp [List.getElem?_eq_getElem, ha, hb]
    · simp [ha, List.getElem?_eq_none (not_lt.mp hb)]
  · simp [List.getElem?_eq_none (not_lt.mp ha)]

/-- C70 is false for data stored longitude first: with as many latitudes as longitudes every value off the
diagonal gets the coordinates of another point. -/
theorem C70_refuted {K : Type} (x y : List K) (hx : x.Nodup) (hlen : x.length = y.length) (X Y : List (List K))
    (h : coordGrids (.d1 x) (.d1 y) = .ok (X, Y)) (a b : Nat) (ha : a < x.length) (hb : b < x.length) (hab : a ≠ b) :
    ∃ p q, attached X Y a b = some p ∧ labelOf x y .lonLat a b = some q ∧ p ≠ q := by
  rw [C70_partial x y X Y h a b]
  refine ⟨(x[b], y[a]), (x[a], y[b]), ?_, ?_, ?_⟩
  · simp [labelOf, List.getElem?_eq_getElem, hlen ▸ ha, hb]
  · simp [labelOf, List.getElem?_eq_getElem, hlen ▸ hb, ha]
  · intro he
    rw [Prod.mk.injEq] at he
    exact hab ((List.Nodup.getElem_inj_iff hx).mp he.1.symm)

example : [1, 2, 3].Nodup ∧ [1, 2, 3].length = [10, 20, 30].length := by decide

end Trackeddy
