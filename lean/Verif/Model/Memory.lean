import Mathlib.Data.Multiset.AddSub

/-!
Model of the memory management and reference counting in trackeddy/src/cntr.c:1286-1896, as used by `extract_contours`
(trackeddy/geometry.py:9-43).

A block of memory is a number. The heap is the multiset of references that are held: a block obtained from `malloc` is held once, a
Python object as often as its reference count says. Every attempt to allocate may fail. Reading or writing through a null pointer
or through a pointer to a block that is no longer held is undefined behaviour in C (`Bad`); so is freeing such a block.

What the blocks contain is the matter of Model/Cntr.lean; here only pointers are followed. The checks after the second pass
(cntr.c:1668-1673, 1686-1691) and the result -1 of `reorder` are left out: they are unreachable (C73).
-/
namespace Trackeddy.Mem

/-- undefined behaviour -/
inductive Bad
  | nullPointer
  | dangling
deriving DecidableEq, Repr

/-- Python exceptions. `systemError` is what the interpreter raises if a function returns NULL without having set an exception. -/
inductive Exc
  | memoryError
  | valueError
  | systemError
deriving DecidableEq, Repr

/-- the places at which memory is allocated -/
inductive Place
  /-- `tp_alloc` (cntr.c:1771) -/
  | object
  /-- `cntr_new` (cntr.c:1290) -/
  | site
  /-- the copies of the arguments (cntr.c:1815-1825) -/
  | xArray | yArray | zArray | maskArray
  /-- `site->data` (cntr.c:1314) -/
  | data
  /-- `site->saddle` (cntr.c:1320) -/
  | saddle
  /-- `site->reg` (cntr.c:1330) -/
  | reg
  /-- `xp0`, `yp0`, `kp0`, `nseg0` (cntr.c:1654-1657) -/
  | xp | yp | kp | nseg
  /-- `PyList_New` (cntr.c:1503) -/
  | list
  /-- `xyv` of a contour (cntr.c:1516) -/
  | verts (i : Nat)
  /-- `kv` of a contour (cntr.c:1518) -/
  | codes (i : Nat)
  /-- `i0` (cntr.c:1375) -/
  | i0 (i : Nat)
  /-- `i1` (cntr.c:1376) -/
  | i1 (i : Nat)
  /-- `subp` (cntr.c:1410) -/
  | subp (i : Nat)
  /-- `PyArray_Resize` of the vertices (cntr.c:1529) -/
  | shrinkVerts (i : Nat)
  /-- `PyArray_Resize` of the codes (cntr.c:1532) -/
  | shrinkCodes (i : Nat)
deriving DecidableEq, Repr

/-- The state: the number of attempts to allocate, the references held, the exception that has been set. -/
structure St where
  next : Nat
  refs : Multiset Nat
  err : Option Exc := none

/-- which attempts to allocate fail -/
abbrev Failures := Nat → Place → Bool

/-- an attempt to allocate; `none` is NULL -/
def alloc (F : Failures) (p : Place) (s : St) : Option Nat × St :=
  if F s.next p then (none, { s with next := s.next + 1 })
  else (some s.next, { s with next := s.next + 1, refs := s.next ::ₘ s.refs })

/-- an attempt of numpy or the interpreter to allocate an object, which sets `MemoryError` if it fails -/
def allocPy (F : Failures) (p : Place) (s : St) : Option Nat × St :=
  let r := alloc F p s
  (r.1, if r.1.isNone then { r.2 with err := some .memoryError } else r.2)

/-- `PyMem_Free`, `free`, `Py_XDECREF`: nothing for NULL, otherwise one reference less -/
def release (p : Option Nat) (s : St) : Except Bad St :=
  match p with
  | none => .ok s
  | some b => if b ∈ s.refs then .ok { s with refs := s.refs.erase b } else .error .dangling

/-- the same for several pointers in turn -/
def releaseAll : List (Option Nat) → St → Except Bad St
  | [], s => .ok s
  | p :: ps, s => do
    let s ← release p s
    releaseAll ps s

/-- reading or writing through a pointer -/
def access (p : Option Nat) (s : St) : Except Bad Unit :=
  match p with
  | none => .error .nullPointer
  | some b => if b ∈ s.refs then .ok () else .error .dangling

/-- the pointers in a `Csite` that it owns (cntr.c:1293-1301) -/
structure SiteRec where
  data : Option Nat := none
  saddle : Option Nat := none
  reg : Option Nat := none

/-- a `Cntr` (cntr.c:1724-1728), with the contents of the `Csite` it points to -/
structure Obj where
  self : Nat
  site : Option Nat
  own : SiteRec
  xpa : Option Nat
  ypa : Option Nat
  zpa : Option Nat
  mpa : Option Nat

/-- `cntr_del` (cntr.c:1349-1356) -/
def cntrDel (site : Option Nat) (r : SiteRec) (s : St) : Except Bad St := do
  access site s
  releaseAll [r.saddle, r.reg, r.data, site] s

/-- `Cntr_dealloc` with `Cntr_clear` (cntr.c:1730-1764) -/
def dealloc (o : Obj) (s : St) : Except Bad St := do
  let s ← cntrDel o.site o.own s
  releaseAll [o.xpa, o.ypa, o.zpa, o.mpa, some o.self] s

/-- `Cntr_new` with `cntr_new` (cntr.c:1286-1302, 1766-1789). `Py_XDECREF(self)` destroys the object. -/
def cntrNew (F : Failures) (s : St) : Except Bad (Option Obj × St) :=
  match allocPy F .object s with
  | (none, s) => .ok (none, s)
  | (some self, s) =>
    match alloc F .site s with
    | (none, s) => do
      let s ← dealloc ⟨self, none, {}, none, none, none, none⟩ { s with err := some .memoryError }
      return (none, s)
    | (some b, s) => .ok (some ⟨self, some b, {}, none, none, none, none⟩, s)

/-- `cntr_init` (cntr.c:1304-1347): `false` is the result -1 -/
def siteInit (F : Failures) (masked : Bool) (site : Option Nat) (r : SiteRec) (s : St) : Except Bad (Bool × SiteRec × St) := do
  access site s
  match alloc F .data s with
  | (none, s) =>
    let s ← release site s
    return (false, { r with data := none }, s)
  | (some d, s) =>
    match alloc F .saddle s with
    | (none, s) =>
      let s ← releaseAll [some d, site] s
      return (false, { r with data := some d, saddle := none }, s)
    | (some a, s) =>
      if masked then
        match alloc F .reg s with
        | (none, s) =>
          let s ← releaseAll [some a, some d, site] s
          return (false, ⟨some d, some a, none⟩, s)
        | (some g, s) => return (true, ⟨some d, some a, some g⟩, s)
      else return (true, ⟨some d, some a, none⟩, s)

/-- what `PyArray_ContiguousFromObject` does with an argument (cntr.c:1815-1827) -/
inductive Arg
  /-- the array has the right type and layout already: a further reference to it -/
  | same (b : Nat)
  /-- a new array is made -/
  | copy
  /-- not two dimensional, or not numbers -/
  | unfit
deriving DecidableEq

/-- `PyArray_ContiguousFromObject` -/
def convert (F : Failures) (p : Place) (a : Arg) (s : St) : Option Nat × St :=
  match a with
  | .same b => (some b, { s with refs := b ::ₘ s.refs })
  | .copy => allocPy F p s
  | .unfit => (none, { s with err := some .valueError })

/-- the same for the optional mask (cntr.c:1821-1825) -/
def convertMask (F : Failures) (m : Option Arg) (s : St) : Option Nat × St :=
  match m with
  | some m => convert F .maskArray m s
  | none => (none, s)

/-- the arguments of `Cntr(x, y, z, mask)`: what has to be done with each, and whether the shapes agree -/
structure Args where
  x : Arg
  y : Arg
  z : Arg
  mask : Option Arg := none
  sameShape : Bool

/-- `Cntr_init` (cntr.c:1791-1874): `false` is the result -1 -/
def objInit (F : Failures) (a : Args) (o : Obj) (s : St) : Except Bad (Bool × Obj × St) := do
  let (xpa, s) := convert F .xArray a.x s
  let (ypa, s) := convert F .yArray a.y s
  let (zpa, s) := convert F .zArray a.z s
  let (mpa, s) := convertMask F a.mask s
  if xpa.isNone ∨ ypa.isNone ∨ zpa.isNone ∨ (a.mask.isSome ∧ mpa.isNone) then
    let s ← releaseAll [xpa, ypa, zpa, mpa] { s with err := some .valueError }
    return (false, o, s)
  else if a.sameShape = false then
    let s ← releaseAll [xpa, ypa, zpa, mpa] { s with err := some .valueError }
    return (false, o, s)
  else
    let (ok, r, s) ← siteInit F a.mask.isSome o.site o.own s
    if ok then return (true, { o with own := r, xpa := xpa, ypa := ypa, zpa := zpa, mpa := mpa }, s)
    else
      let s ← releaseAll [xpa, ypa, zpa, mpa] { s with err := some .memoryError }
      return (false, { o with own := r }, s)

/-- The call `Cntr(x, y, z, mask)`: `tp_new`, then `tp_init`; if this fails, the object is destroyed. -/
def construct (F : Failures) (a : Args) (s : St) : Except Bad (Option Obj × St) := do
  match ← cntrNew F s with
  | (none, s) => return (none, s)
  | (some o, s) =>
    match ← objInit F a o s with
    | (true, o, s) => return (some o, s)
    | (false, o, s) =>
      let s ← dealloc o s
      return (none, s)

/-- the allocations of `reorder` (cntr.c:1361-1483) for contour `i`, which consists of `nsegs` segments. Nothing is checked. -/
def reorderMem (F : Failures) (i nsegs : Nat) (s : St) : Except Bad St := do
  let (p0, s) := alloc F (.i0 i) s
  let (p1, s) := alloc F (.i1 i) s
  if nsegs = 0 then releaseAll [p0, p1, none] s
  else
    access p0 s
    access p1 s
    let (q, s) := alloc F (.subp i) s
    access q s
    releaseAll [p0, p1, q] s

/-- the end of a list (its reference count is one): the list and the references it holds are given up -/
def releaseList (l : Option Nat) (items : List Nat) (s : St) : Except Bad St :=
  match l with
  | none => .ok s
  | some b => do
    let s ← release (some b) s
    releaseAll (items.map some) s

/-- the loop of `build_cntr_list_v2` (cntr.c:1505-1540) from contour `i` on. `kv` is the variable of this name, left over from
the round before; `items` are the arrays put into the list so far. The result is `none` after a jump to `error`. -/
def buildLoop (F : Failures) (l : Option Nat) : Nat → List Nat → Option Nat → List Nat → St → Except Bad (Option (List Nat) × St)
  | _, [], _, items, s => .ok (some items, s)
  | i, nsegs :: rest, kv, items, s =>
    let fail (xyv kv : Option Nat) (s : St) : Except Bad (Option (List Nat) × St) := do
      let s ← releaseAll [xyv, kv] s
      let s ← releaseList l items s
      return (none, s)
    match allocPy F (.verts i) s with
    | (none, s) => fail none kv s
    | (some v, s) =>
      match allocPy F (.codes i) s with
      | (none, s) => fail (some v) none s
      | (some k, s) => do
        let s ← reorderMem F i nsegs s
        if F s.next (.shrinkVerts i) then fail (some v) (some k) { s with next := s.next + 1, err := some .memoryError }
        else
          let s := { s with next := s.next + 1 }
          if F s.next (.shrinkCodes i) then fail (some v) (some k) { s with next := s.next + 1, err := some .memoryError }
          else
            let s := { s with next := s.next + 1 }
            access l s
            buildLoop F l (i + 1) rest (some k) (items ++ [v, k]) s

/-- `build_cntr_list_v2` (cntr.c:1488-1547) for contours with the given numbers of segments: the list and its items -/
def buildList (F : Failures) (segs : List Nat) (s : St) : Except Bad (Option (Nat × List Nat) × St) := do
  let (l, s) := allocPy F .list s
  let (items, s) ← buildLoop F l 0 segs none [] s
  return ((match l, items with
    | some b, some items => some (b, items)
    | _, _ => none), s)

/-- `Cntr_trace` with `cntr_trace` (cntr.c:1610-1716, 1876-1892) -/
def traceMem (F : Failures) (o : Obj) (segs : List Nat) (s : St) : Except Bad (Option (Nat × List Nat) × St) := do
  access o.site s
  access o.own.data s
  access o.own.saddle s
  access o.xpa s
  access o.ypa s
  access o.zpa s
  let (xp, s) := alloc F .xp s
  let (yp, s) := alloc F .yp s
  let (kp, s) := alloc F .kp s
  let (np, s) := alloc F .nseg s
  if xp.isNone ∨ yp.isNone ∨ kp.isNone ∨ np.isNone then
    let s ← releaseAll [xp, yp, kp, np] s
    return (none, s)
  else
    access xp s
    access yp s
    access kp s
    access np s
    let (res, s) ← buildList F segs s
    let s ← releaseAll [xp, yp, kp, np] s
    return (res, s)

/-- what a call gives: a list with its items, or an exception -/
inductive Result
  | value (list : Nat) (items : List Nat)
  | raised (e : Exc)

/-- the exception the interpreter raises after NULL has been returned -/
def raisedBy (s : St) : Result := .raised (s.err.getD .systemError)

/-- The calls to cntr.c in `extract_contours` (geometry.py:31-34); `c` is destroyed at the end of the function in any case. The
level has contours with the given numbers of segments. -/
def extractMem (F : Failures) (a : Args) (segs : List Nat) (s : St) : Except Bad (Result × St) := do
  match ← construct F a s with
  | (none, s) => return (raisedBy s, { s with err := none })
  | (some o, s) =>
    let (res, s) ← traceMem F o segs s
    let r := match res with
      | some (l, items) => Result.value l items
      | none => raisedBy s
    let s ← dealloc o { s with err := none }
    return (r, s)

end Trackeddy.Mem
