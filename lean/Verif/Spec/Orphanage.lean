import Verif.Model.Vec
import Mathlib.Data.List.Basic
/-
Closed polygons of integral points. Nothing here refers to how a polygon is simplified.
-/
namespace Verif.Orphanage
open Verif.Geom

/-- The facets join the `n` points `P 0`, …, `P (n - 1)` in this order and the last to the first; facet `i` names them `id i` and
`id (i + 1)` in the flat array. -/
def Loop (points : List Int) (facets : List (List Int)) (n : Nat) (id : Nat → Nat) (P : Nat → V2 Int) : Prop :=
  facets = (List.range n).map (fun i => [Int.ofNat (id i), Int.ofNat (id ((i + 1) % n))]) ∧
  ∀ i < n, points[2 * id i]? = some (P i).x ∧ points[2 * id i + 1]? = some (P i).y

/-- The scalar product of `q - p` and `r - p`. -/
def dotAt (p q r : V2 Int) : Int := (q.x - p.x) * (r.x - p.x) + (q.y - p.y) * (r.y - p.y)

/-- No interior angle is acute: at every corner the directions to both neighbours are at a right angle or further apart. -/
def NoAcute (n : Nat) (P : Nat → V2 Int) : Prop := ∀ i < n, dotAt (P ((i + 1) % n)) (P i) (P (((i + 1) % n + 1) % n)) ≤ 0

/-- A flat array of points. -/
def flat : List (V2 Int) → List Int
  | [] => []
  | p :: ps => p.x :: p.y :: flat ps

end Verif.Orphanage
