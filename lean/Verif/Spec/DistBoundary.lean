import Verif.Model.DistBoundary
import Verif.Spec.Distributed
/- Vocabulary for the boundary of a distributed tessellation. -/
namespace Verif.Nbr
open Verif Verif.Mesh Verif.Geom

/-- Where to tessellate, by coordinates: facets are lists of places, not of numbers of points. -/
inductive Region (K : Type) where
  | everywhere
  | box (low high : List K)
  | inside (outer : List (List (List K))) (holes : List (List (List (List K))))

/-- The region with its holes filled. -/
def Region.filled {K : Type} : Region K → Region K
  | .inside outer _ => .inside outer []
  | r => r

/-- The coordinates of point `i` of an array in dimension `d`. -/
def place {K : Type} (d : Nat) (pts : List K) (i : Int) : List K := (pts.drop (d * i.toNat)).take d

/-- The region a caller asks for. -/
def Bounds.region {K : Type} (d : Nat) : Bounds K → Region K
  | .unbounded => .everywhere
  | .box low high => .box low high
  | .plc pts g => .inside (g.facets.map (·.map (place d pts))) (g.holes.map (·.map (·.map (place d pts))))
  | .reduced g => .inside (g.facets.map (·.map (place d g.points))) (g.holes.map (·.map (·.map (place d g.points))))

/-- `i` is the number of a point of an array in dimension `d`. -/
def IsPoint {K : Type} (d : Nat) (pts : List K) (i : Int) : Prop := 0 ≤ i ∧ d * i.toNat + d ≤ pts.length

/-- The facets and holes a caller passes name existing points. -/
def Bounds.Valid {K : Type} (d : Nat) : Bounds K → Prop
  | .unbounded | .box _ _ => True
  | .plc pts g => (∀ f ∈ g.facets, ∀ i ∈ f, IsPoint d pts i) ∧ ∀ h ∈ g.holes, ∀ f ∈ h, ∀ i ∈ f, IsPoint d pts i
  | .reduced g => (∀ f ∈ g.facets, ∀ i ∈ f, IsPoint d g.points i) ∧ ∀ h ∈ g.holes, ∀ f ∈ h, ∀ i ∈ f, IsPoint d g.points i

/-- Calling the serial tessellator oneself, with these arguments. -/
def Serial.tess {K : Type} (s : Serial K) : Bounds K → List K → Res (Tess K)
  | .unbounded, l => s.free l
  | .box low high, l => s.inBox l low high
  | .plc pts g, l => s.inPLC l pts g
  | .reduced g, l => s.inPLC l g.points ⟨g.facets, g.holes⟩

section
variable {K : Type} [Field K] [LinearOrder K]

/-- A serial tessellator that can be relied on for these points, in the region `R`, which is the set `Dom` of places. Without boundary it gives the Voronoi cells of the points of each process as far as
their hull goes. With any arguments that ask for the region it gives the Voronoi cells, in `Dom`, of any of the points. -/
structure Reliable (s : Serial K) (points : List (List K)) (R : Region K) (Dom : V2 K → Prop) : Prop where
  free : ∀ l ∈ points, ∃ m, s.free l = .ok m ∧ ((∃ u ∈ pts2 l, ∃ v ∈ pts2 l, ∃ w ∈ pts2 l, area2 u v w ≠ 0) → ShowsInside m (pts2 l) (Hull2 (pts2 l)))
  bounded : ∀ b l, b.Valid 2 → b.region 2 = R → l.length % 2 = 0 → l ≠ [] → (pts2 l).Nodup → (∀ v ∈ pts2 l, v ∈ allPts points) → ∃ m, s.tess b l = .ok m ∧ GoodMesh m (pts2 l) Dom
end
end Verif.Nbr
