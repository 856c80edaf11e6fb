import Verif.Spec.Polygon
import Verif.Model.PLC
/- Convex hulls, and polygons and polyhedra given as facets over a flat array of coordinates. -/
namespace Verif.Geom
open Verif Verif.Mesh
section
variable {K : Type} [Field K] [LinearOrder K]

/-- The convex hull: the smallest set that contains the points and the segments between its points. -/
inductive Hull2 (S : List (V2 K)) : V2 K → Prop
  | pt {p} : p ∈ S → Hull2 S p
  | seg {p q t} : Hull2 S p → Hull2 S q → 0 ≤ t → t ≤ 1 → Hull2 S (lerp2 p q t)
inductive Hull3 (S : List (V3 K)) : V3 K → Prop
  | pt {p} : p ∈ S → Hull3 S p
  | seg {p q t} : Hull3 S p → Hull3 S q → 0 ≤ t → t ≤ 1 → Hull3 S (lerp3 p q t)

omit [LinearOrder K] in
/-- The points of a flat array. -/
def pts2 (l : List K) : List (V2 K) := corners l 0 (l.length / 2)

/-- In the closed polygon: to the left of or on every side. -/
def InPoly (vs : List (V2 K)) (p : V2 K) : Prop := ∀ e ∈ dirSides vs, 0 ≤ area2 e.1 e.2 p

/-- A 2D `ReducedPLC` that is the polygon with corners `vs`: its points are the corners and its facets the sides, in any order and numbering. -/
structure IsPolygon (b : RPLC K) (vs : List (V2 K)) : Prop where
  even : b.points.length % 2 = 0
  points : ∀ v, v ∈ pts2 b.points ↔ v ∈ vs
  ids : ∀ f ∈ b.facets, f.length = 2 ∧ ∀ i ∈ f, 0 ≤ i ∧ i < ((b.points.length / 2 : Nat) : Int)
  sides : ∀ e, (∃ f ∈ b.facets, (segA b.points f, segB b.points f) = e) ↔ e ∈ dirSides vs

/-- The position of vertex `i` of a flat array in space, and all of them. -/
def vtx3 (l : List K) (i : Nat) : V3 K := ⟨l.getD (3 * i) 0, l.getD (3 * i + 1) 0, l.getD (3 * i + 2) 0⟩
def pts3 (l : List K) : List (V3 K) := (List.range (l.length / 3)).map (vtx3 l)

/-- The first three vertices of a facet. -/
def tri3 (l : List K) (f : List Int) (k : Nat) : V3 K := vtx3 l (f.getD k 0).toNat

/-- The height of `p` over the plane through `a`, `b`, `c`, times the length of the normal: positive in front. -/
def height (a b c p : V3 K) : K := vol6 a b c p

/-- A 3D `ReducedPLC` with existing vertices and facets of at least three. -/
structure GoodSolid (b : RPLC K) : Prop where
  mult : b.points.length % 3 = 0
  some : 0 < b.points.length
  ids : ∀ f ∈ b.facets, 3 ≤ f.length ∧ ∀ i ∈ f, 0 ≤ i ∧ i < ((b.points.length / 3 : Nat) : Int)

omit [LinearOrder K] in
/-- A facet whose normal is computed correctly: its second vertex is as high as the first, or the third is as far up as it is sideways. -/
def TrueNormal (l : List K) (f : List Int) : Prop :=
  ((tri3 l f 1).z - (tri3 l f 0).z) * (((tri3 l f 2).y - (tri3 l f 0).y) - ((tri3 l f 2).z - (tri3 l f 0).z)) = 0

/-- Behind every facet: the interior of a convex solid whose facets are listed counter-clockwise seen from outside. -/
def Behind (b : RPLC K) (p : V3 K) : Prop := ∀ f ∈ b.facets, vol6 (tri3 b.points f 0) (tri3 b.points f 1) (tri3 b.points f 2) p < 0
def BehindOrOn (b : RPLC K) (p : V3 K) : Prop := ∀ f ∈ b.facets, vol6 (tri3 b.points f 0) (tri3 b.points f 1) (tri3 b.points f 2) p ≤ 0
end
end Verif.Geom
