import Verif.Spec.SolidAny
/-
What it means that polygons are the boundary of a solid.
-/
namespace Verif.Csg
open Verif Verif.Geom
section
variable {K : Type} [Field K] [LinearOrder K]

/-- The polygons `r` are the boundary of the solid `U`: they are convex polygons, a way from a point in `U` to a point not in `U` meets one of them, and just behind any inner point of
any of them is `U`, just in front of it is not. The ends of the way are not in `F`. -/
structure Boundary (r : List (Poly K)) (U F : Set (V3 K)) : Prop where
  good : ∀ x ∈ r, PolyW x
  separates : ∀ p q, p ∉ F → q ∉ F → (∀ t, 0 ≤ t → t ≤ 1 → ∀ x ∈ r, ¬ Hull3 x.verts (lerp3 p q t)) → (p ∈ U ↔ q ∈ U)
  outward : ∀ x ∈ r, ∀ c, Inner x.verts c →
    ∃ d, 0 < d ∧ ∀ t, 0 < t → t < d → c - V3.scale t x.plane.normal ∈ U ∧ c + V3.scale t x.plane.normal ∉ U

/-- The points on the facets of one of two surfaces. -/
def OnEither (A B : RPLC K) : Set (V3 K) := {q | OnFacets3 A q ∨ OnFacets3 B q}
end
end Verif.Csg
