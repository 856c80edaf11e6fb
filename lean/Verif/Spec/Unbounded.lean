import Verif.Spec.QuantTess
import Mathlib.Algebra.Order.Field.Basic
/-
Rings of nodes round generators. `side a b i` is positive if generator `i` lies to the left of the line from node `a` to node `b`,
and negative if it lies to the right. Nothing here refers to how a mesh is built.
-/
namespace Verif.Unbounded

/-- A ring of at least three nodes below `n`, no two neighbours equal, the last and the first included. -/
def IsRing (n : Nat) (c : List Nat) : Prop :=
  3 ≤ c.length ∧ (∀ a ∈ c, a < n) ∧ ∀ j < c.length, c.getD j 0 ≠ c.getD ((j + 1) % c.length) 0

/-- The ring runs counter-clockwise round generator `i`: the generator lies to the left of every side. -/
def Around {K : Type} [Zero K] [LT K] (side : Int → Int → Nat → K) (i : Nat) (c : List Nat) : Prop :=
  ∀ j < c.length, 0 < side (c.getD j 0 : Nat) (c.getD ((j + 1) % c.length) 0 : Nat) i

end Verif.Unbounded
