import Verif.Model.Csg3
import Verif.Spec.Bsp
import Verif.Spec.Convex
/-
Convex polygons in space.
-/
namespace Verif.Csg
open Verif Verif.Geom
section
variable {K : Type} [Field K] [LinearOrder K]

omit [LinearOrder K] in
/-- Positive if the way from `a` by `b` to `c` turns left, seen from the side that `n` points to. -/
def turn (n a b c : V3 K) : K := dot3 n (cross3 (b - a) (c - a))

/-- A strictly convex polygon: its vertices are in its plane, and any three of them, in their order, turn left. -/
structure PolyW (p : Poly K) : Prop where
  three : 3 ≤ p.verts.length
  planar : ∀ v ∈ p.verts, dot3 p.plane.normal v = p.plane.w
  convex : ∀ i j k, i < j → j < k → k < p.verts.length → 0 < turn p.plane.normal (p.verts.getD i 0) (p.verts.getD j 0) (p.verts.getD k 0)

/-- A degenerate polygon: its vertices are on a line, and it has no plane. -/
structure Thin (p : Poly K) : Prop where
  three : 3 ≤ p.verts.length
  line : ∃ a d : V3 K, ∀ v ∈ p.verts, ∃ t, v = ⟨a.x + t * d.x, a.y + t * d.y, a.z + t * d.z⟩
  normal : p.plane.normal = 0
  w : p.plane.w = 0

/-- The polygons that the operations are for. Every triangle is one. -/
def PolyL (p : Poly K) : Prop := PolyW p ∨ Thin p

/-- The geometry of polygons: a polygon is the convex hull of its vertices; height is measured in units of the length of the normal. -/
def polyGeo (eps : K) : Geo (Poly K) (Plane K) (V3 K) K where
  pts p := {q | Hull3 p.verts q}
  side p q := dot3 p.normal q - p.w
  eps := eps

/-! ### Solids given as reduced PLCs -/

/-- Point `i` of a list of coordinates. -/
def coord3 (v : List K) (i : Int) : V3 K := ⟨v.getD (3 * i.toNat) 0, v.getD (3 * i.toNat + 1) 0, v.getD (3 * i.toNat + 2) 0⟩

/-- The corners of a facet. -/
def corners (P : RPLC K) (f : List Int) : List (V3 K) := f.map (coord3 P.points)

/-- The height of `q` above the plane through the first three corners of a facet, in units of the length of its normal (twice the area of the triangle). -/
def above (P : RPLC K) (f : List Int) (q : V3 K) : K :=
  dot3 (cross3 ((corners P f).getD 1 0 - (corners P f).getD 0 0) ((corners P f).getD 2 0 - (corners P f).getD 0 0)) (q - (corners P f).getD 0 0)

/-- `q` is on one of the facets. -/
def OnFacets3 (P : RPLC K) (q : V3 K) : Prop := ∃ f ∈ P.facets, Hull3 (corners P f) q

/-- A facet: existing vertices, at least three, in the plane of the first three, and any three of them, in their order, turn left seen from where the normal points. -/
structure GoodFacet (P : RPLC K) (f : List Int) : Prop where
  range : ∀ i ∈ f, 0 ≤ i ∧ 3 * i.toNat + 2 < P.points.length
  three : 3 ≤ f.length
  planar : ∀ v ∈ corners P f, above P f v = 0
  convex : ∀ i j k, i < j → j < k → k < f.length →
    0 < turn (cross3 ((corners P f).getD 1 0 - (corners P f).getD 0 0) ((corners P f).getD 2 0 - (corners P f).getD 0 0)) ((corners P f).getD i 0) ((corners P f).getD j 0) ((corners P f).getD k 0)

/-- A convex solid: at least four good facets; every facet has the corners of the others behind it or in its plane, and at most two of another facet within `eps` of its plane. -/
structure ConvexSolid (eps : K) (P : RPLC K) : Prop where
  four : 4 ≤ P.facets.length
  good : ∀ f ∈ P.facets, GoodFacet P f
  behind : P.facets.Pairwise fun f g => (∀ v ∈ corners P g, above P f v ≤ 0)
    ∧ ∀ i j k, i < j → j < k → k < g.length → above P f ((corners P g).getD i 0) < -eps ∨ above P f ((corners P g).getD j 0) < -eps ∨ above P f ((corners P g).getD k 0) < -eps

/-- Behind all facets by more than `eps`. -/
def Inside3 (eps : K) (P : RPLC K) (q : V3 K) : Prop := ∀ f ∈ P.facets, above P f q < -eps

/-- In front of some facet by more than `eps`. -/
def Outside3 (eps : K) (P : RPLC K) (q : V3 K) : Prop := ∃ f ∈ P.facets, eps < above P f q
end
end Verif.Csg
