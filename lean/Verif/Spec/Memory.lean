import Verif.Model.Memory

/-!
What may fail, and what is held after a call (C132, C133).
-/
namespace Trackeddy.Mem

/-- the allocations whose failure the code does not survive -/
def Critical : Place → Prop
  | .site | .data | .saddle | .reg | .list | .verts (_ + 1) | .i0 _ | .i1 _ | .subp _ => True
  | _ => False

/-- the references that come with a result -/
def Result.blocks : Result → Multiset Nat
  | .value l items => l ::ₘ ↑items
  | .raised _ => 0

/-- an argument that is a two dimensional array of numbers -/
def Arg.Fits : Arg → Prop
  | .unfit => False
  | _ => True

end Trackeddy.Mem
