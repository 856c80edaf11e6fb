import Verif.Model.PLC
import Verif.Spec.Query
/-
Polygons given as reduced PLCs, their boundary, inside and outside; direction of segments.
-/
namespace Verif.Csg
open Verif Verif.Geom

section
variable {K : Type} [Field K] [LinearOrder K]

/-- `q` is on one of the outer facets. -/
def OnFacets (P : RPLC K) (q : V2 K) : Prop := ∃ f ∈ P.facets, OnSeg (segA P.points f) (segB P.points f) q

/-- `q` is on the boundary, facets and holes. -/
def OnBoundary (P : RPLC K) (q : V2 K) : Prop := OnPLC P.points { facets := P.facets, holes := P.holes } q

/-- The end points of `g` are on the left of the line through `f`, and one of them is by more than `eps` (in units of the length of `f`). -/
def LeftOf (eps : K) (v : List K) (f g : List Int) : Prop :=
  0 ≤ area2 (segA v f) (segB v f) (segA v g) ∧ 0 ≤ area2 (segA v f) (segB v f) (segB v g)
    ∧ (eps < area2 (segA v f) (segB v f) (segA v g) ∨ eps < area2 (segA v f) (segB v f) (segB v g))

/-- A convex polygon: its facets are segments of positive length between existing vertices, and every facet has the others on its left. -/
def ConvexPolygon (eps : K) (P : RPLC K) : Prop :=
  (∃ n, GoodFacets n P.points P.facets) ∧ P.facets ≠ [] ∧ (∀ f ∈ P.facets, segA P.points f ≠ segB P.points f) ∧ P.facets.Pairwise (LeftOf eps P.points)

/-- On the left of all facets by more than `eps`. -/
def Inside (eps : K) (P : RPLC K) (q : V2 K) : Prop := ∀ f ∈ P.facets, eps < area2 (segA P.points f) (segB P.points f) q

/-- On the right of some facet by more than `eps`. -/
def Outside (eps : K) (P : RPLC K) (q : V2 K) : Prop := ∃ f ∈ P.facets, area2 (segA P.points f) (segB P.points f) q < -eps

/-- The vector from `a` to `b` points in the direction from `c` to `d`. -/
def SameDirection (a b c d : V2 K) : Prop := ∃ k : K, 0 < k ∧ b.x - a.x = k * (d.x - c.x) ∧ b.y - a.y = k * (d.y - c.y)
end
end Verif.Csg
