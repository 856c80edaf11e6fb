import Verif.Spec.Neighbors
/- Vocabulary for the result of a distributed tessellation. -/
namespace Verif.Nbr
open Verif Verif.Mesh Verif.Geom
section
variable {K : Type} [Field K] [LinearOrder K]

/-- The Voronoi cell of `P` among the points `S`, inside the domain. -/
def InCell (S : List (V2 K)) (Dom : V2 K → Prop) (P x : V2 K) : Prop := Dom x ∧ Closest S P x

/-- A corner of a convex set: a point of it that is not half way between two other points of it. -/
def Extreme (C : V2 K → Prop) (x : V2 K) : Prop := C x ∧ ∀ a b, C a → C b → x = lerp2 a b (1 / 2) → a = b

/-- A side of a convex set, which is to its left: the line from one corner to another. -/
def SideOf (C : V2 K → Prop) (u v : V2 K) : Prop := Extreme C u ∧ Extreme C v ∧ u ≠ v ∧ ∀ x, C x → 0 ≤ area2 u v x

/-- The coordinates of a point in an array. -/
def coords (v : V2 K) : List K := [v.x, v.y]

/-- The generators of some processes, one after the other. -/
def gensOf {R : Type} (points : List (List R)) (ps : List Nat) : List R := ps.flatMap fun q => points.getD q []

/-- A mesh of the points `S` in the domain, as a tessellator ought to return it: it shows their Voronoi cells, no two nodes are at the same place, no two faces have the same ends, and it does not say
anything about other processes. -/
structure GoodMesh (m : Tess K) (S : List (V2 K)) (Dom : V2 K → Prop) : Prop where
  shows : ShowsVoronoi m S Dom
  nodes : ∀ a b, a < numNodes 2 m → b < numNodes 2 m → node 2 m a = node 2 m b → a = b
  faces : ∀ e f, e < m.faces.length → f < m.faces.length → (∀ n, n ∈ face m e ↔ n ∈ face m f) → e = f
  sn : m.sharedNodes = []
  sf : m.sharedFaces = []

/-- A mesh with one cell for each of the points `own`, in their order: inside the domain, the Voronoi cell of the point among all the points `S`. No two nodes are at the same place, no two faces have
the same ends. -/
structure ShowsPart (m : Tess K) (own S : List (V2 K)) (Dom : V2 K → Prop) : Prop where
  consistent : Consistent 2 m
  segments : ∀ F ∈ m.faces, F.length = 2
  cells_len : m.cells.length = own.length
  loop : ∀ i, i < own.length → Editor.ClosedLoop m (cell m i)
  shape : ∀ i P, own[i]? = some P → ∃ A, ConvexCCW A ∧ CellIs m i A ∧ ∀ x, InPoly A x ↔ Dom x ∧ Closest S P x
  nodes : ∀ a b, a < numNodes 2 m → b < numNodes 2 m → node 2 m a = node 2 m b → a = b
  faces : ∀ e f, e < m.faces.length → f < m.faces.length → (∀ n, n ∈ face m e ↔ n ∈ face m f) → e = f

/-- Where cells of different processes touch, both are hidden inside the convex hulls of the points of their processes, or neither is. -/
def Fair (points : List (List K)) (Dom : V2 K → Prop) : Prop :=
  ∀ p q g h x, p < points.length → q < points.length → p ≠ q → g ∈ own points p → h ∈ own points q → Dom x → Closest (allPts points) g x → Closest (allPts points) h x →
    (Hidden (own points p) g ↔ Hidden (own points q) h)
end
end Verif.Nbr
