import Verif.Model.PLC
import Verif.Spec.Mesh
/-
What the geometry of a PLC is: coordinates of its facets, closedness, enclosed area and volume. Nothing here refers to how a PLC is built.
-/
namespace Verif.Geom
open Verif Verif.Mesh

/-- The coordinates of point `i` in a flat array. -/
def pt {R : Type} (D : Nat) (pts : List R) (i : Int) : List R := (pts.drop (D * i.toNat)).take D

/-- The coordinates of the vertices of a facet, in order. -/
def facetCoords {R : Type} (D : Nat) (pts : List R) (f : List Int) : List (List R) := f.map (pt D pts)

/-- All the vertex ids name one of `n` points. -/
def InRange (n : Nat) (fs : List (List Int)) : Prop := ∀ f ∈ fs, ∀ i ∈ f, 0 ≤ i ∧ i < n

/-- Every one of the `n` points is a vertex of a facet. -/
def AllUsed (n : Nat) (fs : List (List Int)) : Prop := ∀ k : Nat, k < n → ∃ f ∈ fs, (k : Int) ∈ f

/-- The coordinates of the nodes of a signed face of a mesh, in the direction the cell uses it. -/
def orientedCoords {R : Type} (D : Nat) (m : Tess R) (s : Int) : List (List R) :=
  let c := (face m (posID s)).map (node D m)
  if 0 ≤ s then c else c.reverse

/-- The nodes of a signed face in the direction the cell uses it. -/
def orientedNodes {R : Type} (m : Tess R) (s : Int) : List Nat := if 0 ≤ s then face m (posID s) else (face m (posID s)).reverse

/-- The facets (segments `[a, b]`, 2D) form one closed loop through all of the points `0, …, n-1`, each visited once: the start points are all the points, and each
segment ends where the next one starts. -/
structure OneLoop (n : Nat) (fs : List (List Int)) : Prop where
  segments : ∀ f ∈ fs, f.length = 2
  once : (fs.map fun f => f.getD 0 0).Nodup
  all : ∀ i : Int, i ∈ (fs.map fun f => f.getD 0 0) ↔ 0 ≤ i ∧ i < n
  chain : (fs.map fun f => f.getD 1 0) = (fs.map fun f => f.getD 0 0).rotate 1

/-- The directed edges of a facet in 3D, around the facet. -/
def dirEdges (f : List Int) : List (Int × Int) := f.zip (f.rotate 1)

/-- A closed surface: every directed edge of a facet is matched by exactly one reversed edge. -/
def ClosedSurface (fs : List (List Int)) : Prop :=
  ∀ e ∈ fs.flatMap dirEdges, (fs.flatMap dirEdges).count e = 1 ∧ (fs.flatMap dirEdges).count (e.2, e.1) = 1

section
variable {K : Type} [Field K]

/-- Coordinate `k` of point `i`. -/
def crd (D : Nat) (pts : List K) (i : Int) (k : Nat) : K := pts.getD (D * i.toNat + k) 0

/-- Signed area enclosed by segments: half the sum of the cross products. -/
def signedArea (pts : List K) (fs : List (List Int)) : K :=
  (fs.map fun f => crd 2 pts (f.getD 0 0) 0 * crd 2 pts (f.getD 1 0) 1 - crd 2 pts (f.getD 1 0) 0 * crd 2 pts (f.getD 0 0) 1).sum / 2

/-- The triangles of a facet seen from its first vertex. -/
def fan (f : List Int) : List (Int × Int × Int) :=
  match f with
  | [] => []
  | a :: r => (r.zip r.tail).map fun p => (a, p.1, p.2)

/-- Determinant of three points. -/
def det3 (pts : List K) (t : Int × Int × Int) : K :=
  crd 3 pts t.1 0 * (crd 3 pts t.2.1 1 * crd 3 pts t.2.2 2 - crd 3 pts t.2.1 2 * crd 3 pts t.2.2 1)
  - crd 3 pts t.1 1 * (crd 3 pts t.2.1 0 * crd 3 pts t.2.2 2 - crd 3 pts t.2.1 2 * crd 3 pts t.2.2 0)
  + crd 3 pts t.1 2 * (crd 3 pts t.2.1 0 * crd 3 pts t.2.2 1 - crd 3 pts t.2.1 1 * crd 3 pts t.2.2 0)

/-- Signed volume enclosed by facets: one sixth of the sum of the determinants of their triangles. -/
def signedVolume (pts : List K) (fs : List (List Int)) : K := ((fs.flatMap fan).map (det3 pts)).sum / 6

/-- Six times the signed volume of the tetrahedron `(t, q)`: negative when `q` is on the inner side of the outward oriented triangle `t`. -/
def side3 (pts : List K) (t : Int × Int × Int) (q : Int) : K :=
  det3 pts (t.2.1, t.2.2, q) - det3 pts (t.1, t.2.2, q) + det3 pts (t.1, t.2.1, q) - det3 pts t

/-- Twice the signed area of the triangle `(a, b, q)`: positive when `q` is on the left of the segment from `a` to `b`. -/
def side2 (pts : List K) (a b q : Int) : K :=
  (crd 2 pts b 0 - crd 2 pts a 0) * (crd 2 pts q 1 - crd 2 pts a 1) - (crd 2 pts b 1 - crd 2 pts a 1) * (crd 2 pts q 0 - crd 2 pts a 0)

end
end Verif.Geom
