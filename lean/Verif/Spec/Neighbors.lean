import Verif.Spec.Convex
import Verif.Spec.PLC
import Verif.Spec.Editor
/- Vocabulary for the choice of neighbour processes: Voronoi cells, hulls, and meshes that show them. -/
namespace Verif.Nbr
open Verif Verif.Mesh Verif.Geom
section
variable {K : Type} [Field K] [LinearOrder K]

/-- `P` is one of the points `S`, and none of them is nearer to `Y`: `Y` is in the Voronoi cell of `P`, boundary included. -/
def Closest (S : List (V2 K)) (P Y : V2 K) : Prop := P ∈ S ∧ ∀ Q ∈ S, sq2 Y P ≤ sq2 Y Q

/-- The points of process `p`, and those of all. -/
def own (points : List (List K)) (p : Nat) : List (V2 K) := pts2 (points.getD p [])
def allPts (points : List (List K)) : List (V2 K) := points.flatMap pts2

/-- The 2D `ReducedPLC` `h` is the convex hull of the points `S`: a convex polygon with corners in `S` that contains `S`, or, if all of `S` is on one line, a segment. -/
inductive HullOf (h : RPLC K) (S : List (V2 K)) : Prop
  | polygon (B : List (V2 K)) : ConvexCCW B → IsPolygon h B → (pts2 h.points).Nodup → (∀ v ∈ B, v ∈ S) → (∀ v ∈ S, InPoly B v) → HullOf h S
  | flat (i j : Int) : h.facets = [[i, j]] → 0 ≤ i → i < S.length → 0 ≤ j → j < S.length → (∀ u ∈ S, ∀ v ∈ S, ∀ w ∈ S, area2 u v w = 0) → HullOf h S

/-- The faces of cell `i`, in the direction in which the cell has them, are the sides of the polygon `A`. -/
def CellIs (m : Tess K) (i : Nat) (A : List (V2 K)) : Prop :=
  (cell m i).map (orientedCoords 2 m) = (dirSides A).map fun e => [[e.1.x, e.1.y], [e.2.x, e.2.y]]

/-- Inside the domain `Dom`, cell `i` of mesh `m` is the Voronoi cell of point `i` of `S`. -/
structure ShowsVoronoi (m : Tess K) (S : List (V2 K)) (Dom : V2 K → Prop) : Prop where
  consistent : Consistent 2 m
  segments : ∀ F ∈ m.faces, F.length = 2
  cells_len : m.cells.length = S.length
  loop : ∀ i, i < S.length → Editor.ClosedLoop m (cell m i)
  shape : ∀ i P, S[i]? = some P → ∃ A, ConvexCCW A ∧ CellIs m i A ∧ ∀ x, InPoly A x ↔ Dom x ∧ Closest S P x

/-- The same, but nothing is said about the parts of cells that are outside `Dom`. -/
structure ShowsInside (m : Tess K) (S : List (V2 K)) (Dom : V2 K → Prop) : Prop where
  consistent : Consistent 2 m
  segments : ∀ F ∈ m.faces, F.length = 2
  cells_len : m.cells.length = S.length
  loop : ∀ i, i < S.length → Editor.ClosedLoop m (cell m i)
  shape : ∀ i P, S[i]? = some P → ∃ A, ConvexCCW A ∧ CellIs m i A ∧ ∀ x, Dom x → (InPoly A x ↔ Closest S P x)

/-- Two cells have a node in common. -/
def ShareNode {R : Type} (m : Tess R) (i j : Nat) : Prop := ∃ n, (∃ s ∈ cell m i, n ∈ face m (posID s)) ∧ ∃ s ∈ cell m j, n ∈ face m (posID s)

/-- Cells whose Voronoi cells have a point of the domain in common have a node in common. -/
def Adjacent (m : Tess K) (S : List (V2 K)) (Dom : V2 K → Prop) : Prop :=
  ∀ i j P Q x, S[i]? = some P → S[j]? = some Q → Dom x → Closest S P x → Closest S Q x → ShareNode m i j

/-- `P`'s Voronoi cell among the points `S` of its own process is strictly inside their convex hull: the polygon `B`. -/
def Hidden (S : List (V2 K)) (P : V2 K) : Prop :=
  ∃ B, ConvexCCW B ∧ (∀ v ∈ B, v ∈ S) ∧ (∀ v ∈ S, InPoly B v) ∧ ∀ x, Closest S P x → StrictlyIn B x

/-- The facets of `h` are segments between existing points, and there is a point. -/
structure GoodHull (h : RPLC K) : Prop where
  even : h.points.length % 2 = 0
  some : 0 < h.points.length
  ids : ∀ f ∈ h.facets, f.length = 2 ∧ ∀ i ∈ f, 0 ≤ i ∧ i < ((h.points.length / 2 : Nat) : Int)

/-- All the points of `b` are strictly to the right of one facet of `a`. -/
def Outside (a b : RPLC K) : Prop := ∃ f ∈ a.facets, ∀ v ∈ pts2 b.points, area2 (segA a.points f) (segB a.points f) v < 0

/-- Point number `i` of the points of all `hulls`, one after the other, is one of those of hull `p`. -/
def Owns {R : Type} (hulls : List (RPLC R)) (p i : Nat) : Prop :=
  ((hulls.take p).map fun h => h.points.length / 2).sum ≤ i ∧ i < ((hulls.take (p + 1)).map fun h => h.points.length / 2).sum

/-- The processes that ought to be neighbours, from hulls and a mesh: neither hull is outside the other, or cells share a node. -/
def Linked (hulls : List (RPLC K)) (m : Tess K) (p q : Nat) : Prop :=
  (∃ a b, hulls[p]? = some a ∧ hulls[q]? = some b ∧ ¬ Outside a b ∧ ¬ Outside b a) ∨ ∃ i j, Owns hulls p i ∧ Owns hulls q j ∧ ShareNode m i j
end
end Verif.Nbr
