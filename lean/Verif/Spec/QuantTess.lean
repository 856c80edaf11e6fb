import Verif.Spec.Internal
/-
What a caller of `internal::QuantTessellation` may assume. `index s` is the index in a signed id `s`, and `directed edges s` is
the edge that `s` names, from its start to its end. Nothing here refers to how the class computes anything.
-/
namespace Verif.QuantTess
open Verif Verif.Internal

/-- Two faces have the same edges, whatever their order and directions. -/
def SameEdges (f g : List Int) : Prop := (f.map index).Perm (g.map index)

/-- Owner `i` holds `k` exactly as often as `k` is said to belong to `i`, with the same direction. -/
def Mirrors (owners back : List (List Int)) : Prop :=
  (∀ (k : Nat) b, back[k]? = some b → ∀ (i : Nat) l, owners[i]? = some l →
    b.count (i : Int) = l.count (k : Int) ∧ b.count (-(i : Int) - 1) = l.count (-(k : Int) - 1)) ∧
  ∀ b ∈ back, ∀ v ∈ b, index v < owners.length

/-- The directed edges of a face run head to tail round a closed loop whose corners are nodes below `n`. -/
def ClosedLoop (n : Nat) (edges : List (Int × Int)) (face : List Int) : Prop :=
  2 ≤ face.length ∧ ∀ j < face.length, ∃ s₁ s₂ a b c, face[j]? = some s₁ ∧ face[(j + 1) % face.length]? = some s₂ ∧
    directed edges s₁ = some (a, b) ∧ directed edges s₂ = some (b, c) ∧ 0 ≤ a ∧ a < n

/-- `ns` lists the corners of that loop: side `j` of the polygon `ns` is the edge `j` of the face. -/
def Corners (edges : List (Int × Int)) (face ns : List Int) : Prop :=
  ns.length = face.length ∧ ∀ (j : Nat) s, face[j]? = some s →
    ∃ a b, ns[j]? = some a ∧ ns[(j + 1) % ns.length]? = some b ∧ directed edges s = some (a, b)

end Verif.QuantTess
