import Verif.Spec.Orphanage
/-
Polygons that share a point. Nothing here refers to how orphans are adopted.
-/
namespace Verif.Adopt
open Verif.Geom

/-- The flat array of points has the point `p`. -/
def HasPoint (points : List Int) (p : V2 Int) : Prop := ∃ k, points[2 * k]? = some p.x ∧ points[2 * k + 1]? = some p.y

/-- Two flat arrays of points have a point in common. -/
def Touch (a b : List Int) : Prop := ∃ p, HasPoint a p ∧ HasPoint b p

end Verif.Adopt
