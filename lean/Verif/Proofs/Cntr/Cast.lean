import Verif.Proofs.Cntr.Extract
import Mathlib.Algebra.Field.Basic
import Mathlib.Algebra.Ring.Hom.Defs
import Mathlib.Order.Monotone.Basic
import Mathlib.Data.Nat.Cast.Basic

/-! Contours of data that are converted to a larger field of numbers (rational to real). -/
namespace Trackeddy.Cntr
open Trackeddy.Spec

set_option linter.unusedSectionVars false
variable {K K' : Type} [Field K] [LinearOrder K] [Field K'] [LinearOrder K']

/-- converted coordinates -/
def NdArr.cast (φ : K → K') (a : NdArr K) : NdArr K' := ⟨a.rows, a.cols, fun j i => φ (a.get j i)⟩
/-- converted values -/
def NdArr.castO (φ : K → K') (a : NdArr (Option K)) : NdArr (Option K') := ⟨a.rows, a.cols, fun j i => (a.get j i).map φ⟩

theorem cast_topo (φ : K →+* K') (hφ : StrictMono φ) (X Y : NdArr K) (Z : NdArr (Option K)) (lev : K) :
    SameTopo X Y Z none lev (X.cast φ) (Y.cast φ) (Z.castO φ) none (φ lev) := by
  refine ⟨rfl, rfl, fun rjunk => ?_⟩
  unfold topoOf mkTopo
  congr 1
  · funext i j
    simp only [Mesh.high, meshOf, NdArr.castO, NdArr.data]
    generalize Z.get _ _ = o
    cases o with
    | none => rfl
    | some v => simp only [Option.map_some]; rw [Bool.eq_iff_iff]; simp [hφ.lt_iff_lt]
  · funext i j
    simp only [meshOf, NdArr.castO, NdArr.data]
    generalize Z.get _ _ = o1
    generalize Z.get _ _ = o2
    generalize Z.get _ _ = o3
    generalize Z.get _ _ = o4
    unfold centreHigh
    cases o1 <;> cases o2 <;> cases o3 <;> cases o4 <;> simp only [Option.map_none, Option.map_some]
    rw [Bool.eq_iff_iff, decide_eq_true_eq, decide_eq_true_eq, ← hφ.lt_iff_lt]
    simp [map_ofNat]

theorem cast_point (φ : K →+* K') (X Y : NdArr K) (Z : NdArr (Option K)) (lev : K) (e : Side) :
    (arrGrid (X.cast φ) (Y.cast φ) (Z.castO φ) none).point (φ lev) e =
      ((arrGrid X Y Z none).point lev e).map fun p => (φ p.1, φ p.2) := by
  unfold Grid.point arrGrid NdArr.cast NdArr.castO
  simp only
  cases Z.get e.a.2 e.a.1 <;> cases Z.get e.b.2 e.b.1 <;> simp

/-- The contours of converted data are the converted contours. -/
theorem extract_cast [DecidableEq K] [DecidableEq K'] (φ : K →+* K') (hφ : StrictMono φ) {X Y : NdArr K} {Z : NdArr (Option K)}
    (h : SameShape X Y Z none) (lev : K) {fuel fuel' : ℕ} {mem mem' : Memory} (hf : bound Z ≤ fuel) (hf' : bound Z ≤ fuel')
    {L : List (List (Vertex K))} {cds : List (Item K)} (hL : extractContours X Y Z lev fuel mem = .ok (L.map .points, cds)) :
    ∃ cds', extractContours (X.cast φ) (Y.cast φ) (Z.castO φ) (φ lev) fuel' mem' =
      .ok (L.map fun vs => .points (vs.map (Option.map fun p => (φ p.1, φ p.2))), cds') := by
  obtain ⟨cs, _, h2⟩ := extract_same h lev
  have e1 := h2 X Y Z lev h (sameTopo_refl _ _ _ _ _) fuel mem hf
  have e2 := h2 (X.cast φ) (Y.cast φ) (Z.castO φ) (φ lev) ⟨h.1, h.2.1, fun M hM => by cases hM⟩ (cast_topo φ hφ X Y Z lev) fuel' mem' hf'
  refine ⟨codeArrays cs, ?_⟩
  rw [e2]
  rw [e1] at hL
  injection hL with hL
  injection hL with hL _
  have : L = cs.map fun es => es.map ((arrGrid X Y Z none).point lev) := by
    have hinj : Function.Injective (Item.points : List (Vertex K) → Item K) := fun a b h => by injection h
    apply List.map_injective_iff.2 hinj
    rw [← hL]
    unfold pointArrays
    rw [List.map_map]
    rfl
  subst this
  congr 2
  unfold pointArrays
  rw [List.map_map]
  apply List.map_congr_left
  intro es _
  simp only [Function.comp, List.map_map, Item.points.injEq]
  apply List.map_congr_left
  intro e _
  exact cast_point φ X Y Z lev e

end Trackeddy.Cntr
