import Verif.Model.Table

/-!
`store_snapshot` (trackeddy/utils.py:259-269): the file name and which writer is called.

Strings are lists of characters. Paths are POSIX paths. The contents written by pandas are not
modelled.
-/
namespace Trackeddy

/-- `"{0:05}".format(t)` for an integer: decimal digits padded with zeros to width 5 after the sign
(utils.py:261). -/
def pad5 (t : Int) : List Char :=
  match t with
  | .ofNat n => List.replicate (5 - (Nat.toDigits 10 n).length) '0' ++ Nat.toDigits 10 n
  | .negSucc n =>
    '-' :: (List.replicate (4 - (Nat.toDigits 10 (n + 1)).length) '0' ++ Nat.toDigits 10 (n + 1))

/-- `"identified_eddies_{0:05}.{1}".format(time, format)` (utils.py:261) -/
def fileName (t : Int) (fmt : List Char) : List Char :=
  "identified_eddies_".toList ++ pad5 t ++ '.' :: fmt

/-- `os.path.join(path, name)` for a name that does not start with a slash (utils.py:261) -/
def joinPath (path name : List Char) : List Char :=
  if path = [] ∨ path.getLast? = some '/' then path ++ name else path ++ '/' :: name

/-- Full path used by `store_snapshot` (utils.py:261). -/
def outPath (path : List Char) (t : Int) (fmt : List Char) : List Char :=
  joinPath path (fileName t fmt)

/-- The writer selected by `store_snapshot` as called by `time_tracking`, i.e. without further keyword
arguments (utils.py:263-269, trackeddy.py:217-219): the path written, if any. `DataFrame.to_hdf` has
the required argument `key`, so the call is a `TypeError`; an unknown format selects no case. -/
def storeSnapshot (path : List Char) (t : Int) (fmt : List Char) : Except PyErr (Option (List Char)) :=
  if fmt = "csv".toList then .ok (some (outPath path t fmt))
  else if fmt = "json".toList then .ok (some (outPath path t fmt))
  else if fmt = "hd5".toList then .error .typeError
  else .ok none

end Trackeddy
