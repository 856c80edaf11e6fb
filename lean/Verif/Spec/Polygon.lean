import Verif.Spec.Query
/- Convex polygons as lists of vertices. -/
namespace Verif.Geom
open Verif Verif.Mesh
section
variable {K : Type} [Field K] [LinearOrder K]

/-- A polygon of at least three corners in strictly convex position, listed counter-clockwise: any three corners in list order turn left. -/
def ConvexCCW (vs : List (V2 K)) : Prop := 3 ≤ vs.length ∧ ∀ a b c, List.Sublist [a, b, c] vs → 0 < area2 a b c

/-- Strictly inside: to the left of every side. -/
def StrictlyIn (vs : List (V2 K)) (p : V2 K) : Prop := ∀ e ∈ dirSides vs, 0 < area2 e.1 e.2 p

/-- Strictly outside: to the right of some side. -/
def StrictlyOut (vs : List (V2 K)) (p : V2 K) : Prop := ∃ e ∈ dirSides vs, area2 e.1 e.2 p < 0

/-- On a side. -/
def OnBoundary (vs : List (V2 K)) (p : V2 K) : Prop := ∃ e ∈ dirSides vs, OnSeg e.1 e.2 p
end

/-- The corners of a loop of `n` vertices stored one after the other from vertex `i` on. -/
def corners {K : Type} [Field K] (verts : List K) (i n : Nat) : List (V2 K) := (List.range n).map fun k => vtx verts ((i + k : Nat) : Int)

/-- The facets of such a loop, starting with vertex `i`. -/
def loopFacets (i n : Nat) : List (List Int) := (List.range n).map fun k => [((i + k : Nat) : Int), ((i + (k + 1) % n : Nat) : Int)]

/-- A PLC whose outer boundary and holes are loops of consecutively stored vertices, each starting at its first vertex. -/
structure LoopPLC (verts : List ℝ) (plc : PLC) (outer : Nat × Nat) (holes : List (Nat × Nat)) : Prop where
  facets_eq : plc.facets = loopFacets outer.1 outer.2
  holes_eq : plc.holes = holes.map fun h => loopFacets h.1 h.2
  fits : ∀ l ∈ outer :: holes, 0 < l.2 ∧ 2 * (l.1 + l.2) ≤ verts.length

/-- Farther from every side than the tolerance of the boundary test. -/
def ClearOf (vs : List (V2 ℝ)) (p : V2 ℝ) : Prop := ∀ e ∈ dirSides vs, ∀ q, OnSeg e.1 e.2 q → 2 / 10 ^ 10 * max 1 (sq2 e.1 e.2) < sq2 p q

end Verif.Geom
