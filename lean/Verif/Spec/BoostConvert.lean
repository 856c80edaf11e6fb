import Mathlib.Data.List.Basic
/-
Boundaries as rings of points, and cells as loops of faces. Nothing here refers to how they are converted.
-/
namespace Verif.BoostConvert

/-- The facets are a closed loop: they join `ids` in this order, and the last to the first. -/
def LoopOf (facets : List (List Int)) (ids : List Nat) : Prop :=
  ids ≠ [] ∧ facets = (List.range ids.length).map fun j => [Int.ofNat (ids.getD j 0), Int.ofNat (ids.getD ((j + 1) % ids.length) 0)]

/-- The closed ring through the points of `ids`: the first point is repeated at the end. -/
def Closed {P : Type} (pts : List P) (ids : List Nat) (ring : List P) : Prop :=
  ring.length = ids.length + 1 ∧ ∀ j ≤ ids.length, ring[j]? = pts[ids.getD (j % ids.length) 0]?

/-- The nodes at which the directed faces of a cell begin. -/
def Starts (faces : List (List Nat)) (cell : List Int) (ns : List Nat) : Prop :=
  List.Forall₂ (fun s n => ∃ a b, faces[if s < 0 then (-s - 1).toNat else s.toNat]? = some [a, b] ∧ n = if s < 0 then b else a) cell ns

end Verif.BoostConvert
