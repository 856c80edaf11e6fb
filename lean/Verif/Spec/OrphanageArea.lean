import Verif.Model.Vec
/-
The area of a polygon of integral points. Nothing here refers to how a polygon is simplified.
-/
namespace Verif.Orphanage
open Verif.Geom

/-- Twice the area between a path and the origin. -/
def sweep : List (V2 Int) → Int
  | p :: q :: r => (p.x * q.y - q.x * p.y) + sweep (q :: r)
  | _ => 0

/-- Twice the signed area of a closed polygon. -/
def area2 : List (V2 Int) → Int
  | [] => 0
  | p :: r => sweep (p :: r ++ [p])

end Verif.Orphanage
