import Mathlib.Order.Lattice
/- What a bounding box is. A box has one pair (low, high) per coordinate. Points are lists of `d` coordinates. -/
namespace Verif.Geom
variable {K : Type} [LinearOrder K]

/-- The points stored in a coordinate list. -/
def pointsOf (d : Nat) (pos : List K) : List (List K) := (List.range (pos.length / d)).map fun i => (pos.drop (d * i)).take d

/-- Every point of the set is in the box. -/
def Bounds (d : Nat) (pts : List (List K)) (box : List (K × K)) : Prop :=
  box.length = d ∧ ∀ p ∈ pts, ∀ (j : Nat) (b : K × K) (x : K), box[j]? = some b → p[j]? = some x → b.1 ≤ x ∧ x ≤ b.2

/-- On every side of the box there is a point. -/
def Touched (pts : List (List K)) (box : List (K × K)) : Prop :=
  ∀ (j : Nat) (b : K × K), box[j]? = some b → (∃ p ∈ pts, p[j]? = some b.1) ∧ ∃ p ∈ pts, p[j]? = some b.2

/-- The tight bounding box. -/
def IsBox (d : Nat) (pts : List (List K)) (box : List (K × K)) : Prop := Bounds d pts box ∧ Touched pts box

/-- Box `a` is inside box `b`. -/
def BoxIn (a b : List (K × K)) : Prop := ∀ (j : Nat) (u v : K × K), a[j]? = some u → b[j]? = some v → v.1 ≤ u.1 ∧ u.2 ≤ v.2

/-- Every side of the box comes from a point or from one of the boxes. -/
def SidesFrom (pts : List (List K)) (olds : List (List (K × K))) (box : List (K × K)) : Prop :=
  ∀ (j : Nat) (b : K × K), box[j]? = some b → ((∃ p ∈ pts, p[j]? = some b.1) ∨ ∃ o ∈ olds, ∃ c : K × K, o[j]? = some c ∧ c.1 = b.1) ∧ ((∃ p ∈ pts, p[j]? = some b.2) ∨ ∃ o ∈ olds, ∃ c : K × K, o[j]? = some c ∧ c.2 = b.2)
end Verif.Geom
