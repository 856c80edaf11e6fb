import Verif.Model.BoostGeo
/-
What it means that a PLC and a polygon of Boost.Geometry have the same boundary.
-/
namespace Verif.BoostGeo
open Verif Verif.Geom

variable {K : Type}

/-- Point `i` of a flat coordinate array, if it is there. -/
def pointAt (points : List K) (i : Int) : Option (K × K) :=
  if 0 ≤ i then
    match points[2 * i.toNat]?, points[2 * i.toNat + 1]? with
    | some x, some y => some (x, y)
    | _, _ => none
  else none

/-- The points of a facet, in order. -/
def facetPoints (points : List K) (f : List Int) : List (Option (K × K)) := f.map (pointAt points)

/-- The segments of a ring: from each point to the next. -/
def segments (r : List (K × K)) : List (List (Option (K × K))) := (r.zip r.tail).map fun s => [some s.1, some s.2]

/-- The facets of the PLC are the segments of the outer ring, in order, and the facets of each of its holes those of a ring of a hole. -/
def Draws (P : RPLC K) (g : Polygon K) : Prop :=
  P.facets.map (facetPoints P.points) = segments g.outer ∧ P.holes.map (fun h => h.map (facetPoints P.points)) = g.inners.map segments

/-- A closed ring with at least three segments. -/
def Closed (r : List (K × K)) : Prop := 4 ≤ r.length ∧ r.head? = r.getLast?

/-- Facets `[i, j]` that name points, each starting where the one before it ends, and the first where the last ends. -/
structure Loop (points : List K) (fs : List (List Int)) : Prop where
  nonempty : fs ≠ []
  pair : ∀ f ∈ fs, f.length = 2
  range : ∀ f ∈ fs, ∀ i ∈ f, 0 ≤ i ∧ 2 * i.toNat + 1 < points.length
  chain : ∀ i, i + 1 < fs.length → (fs.getD i []).getLast? = (fs.getD (i + 1) []).head?
  close : (fs.getLast?.getD []).getLast? = (fs.head?.getD []).head?

/-- A PLC whose facets, and those of each hole, are loops. -/
structure Loops (P : RPLC K) : Prop where
  outer : Loop P.points P.facets
  holes : ∀ h ∈ P.holes, Loop P.points h

/-- A piece of the result of the library that is simply connected: no holes, a closed ring, and in the library's own opinion no intersections with itself. -/
structure Plain (lib : Lib K) (g : Polygon K) : Prop where
  closed : Closed g.outer
  simple : lib.selfIntersects g = false
  holes : g.inners = []

/-- The piece contains the point in the library's opinion, or has it as a corner. -/
def touches [DecidableEq K] (lib : Lib K) (p : K × K) (g : Polygon K) : Bool := lib.coveredBy p g || decide (p ∈ g.outer)

end Verif.BoostGeo
