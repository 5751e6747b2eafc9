import Mathlib.Data.List.Basic

/-!
Which eddies of several levels are kept (C120-C122).
-/
namespace Trackeddy.Spec

open Classical in
/-- the levels one after another: an eddy is kept if it is near none of those kept at the levels before -/
noncomputable def select {β : Type} (near : β → β → Prop) (levels : List (List β)) : List β :=
  levels.foldl (fun kept new => kept ++ new.filter fun e => decide (∀ k ∈ kept, ¬ near e k)) []

end Trackeddy.Spec
