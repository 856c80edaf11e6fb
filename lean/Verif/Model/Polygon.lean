import Verif.Model.Query
/-
Model of the point-in-polygon queries: `pointInPolygon`, `pointOnPolygon` (`/repo/src/polytope_geometric_utilities.hh` L523-568) and `/repo/src/within.hh`.
The `numVertices` pairs of coordinates at `vertices` are a list of points.
-/
namespace Verif.Geom
open Verif Verif.Mesh
section
variable {K : Type} [Field K] [LinearOrder K]

/-- The toggle condition of `pointInPolygon` (L535-539) for vertices `i` and `j`. -/
def toggles (p vi vj : V2 K) : Bool :=
  (decide (p.y < vi.y) != decide (p.y < vj.y)) && decide (p.x < vi.x + (vj.x - vi.x) * (p.y - vi.y) / (vj.y - vi.y))

/-- The loop of `pointInPolygon` (L533-541) from vertex `i` on; `vj` is the vertex `j` before it. -/
def pipLoop (p : V2 K) : V2 K → List (V2 K) → Bool → Bool
  | _, [], result => result
  | vj, vi :: vs, result => pipLoop p vi vs (if toggles p vi vj then !result else result)

/-- `pointInPolygon` (L527-544). The assertion `j < numVertices` holds because the loop is not entered for no vertices. -/
def pointInPolygon (p : V2 K) (vs : List (V2 K)) : Bool := pipLoop p (vs.getLastD 0) vs false
end

/-- The condition of `pointOnPolygon` (L558-562) for the side from `vi` to `vj`. -/
noncomputable def onSide (p vi vj : V2 ℝ) : Prop :=
  min vi.x vj.x ≤ p.x ∧ max vi.x vj.x ≥ p.x ∧ min vi.y vj.y ≤ p.y ∧ max vi.y vj.y ≥ p.y ∧ collinear2 vi vj p (1 / 10 ^ 10)

open Classical in
/-- The loop of `pointOnPolygon` (L555-565) from vertex `i` on; `first` is vertex 0, to which `(i+1) % numVertices` returns. -/
noncomputable def popLoop (p first : V2 ℝ) : List (V2 ℝ) → Bool
  | [] => false
  | [vi] => decide (onSide p vi first)
  | vi :: vj :: vs => if onSide p vi vj then true else popLoop p first (vj :: vs)

/-- `pointOnPolygon` (L550-568). -/
noncomputable def pointOnPolygon (p : V2 ℝ) (vs : List (V2 ℝ)) : Bool := popLoop p (vs.headD 0) vs

/-- The `n` points read from `&vertices[2*i]` on. Both polygon functions together read all of them. -/
def pointsAt {K : Type} (verts : List K) (i n : Nat) : Res (List (V2 K)) := (List.range n).mapM fun k => rdV2 verts (i + k)

/-- `WithinBoundaryFunctor<2>::impl` (`within.hh` L29-47). A negative id converted to `unsigned` is far out of range. -/
noncomputable def withinBoundary (verts : List ℝ) (p : V2 ℝ) (facets : List (List Int)) : Res Nat := do
  let f ← rd facets 0
  let i ← rd f 0
  if i < 0 then .ub
  else
    let poly ← pointsAt verts i.toNat facets.length
    let onBoundary := pointOnPolygon p poly
    let inBoundary := pointInPolygon p poly
    return (if onBoundary then 2 else if inBoundary then 1 else 0)

/-- The loop over the holes (`within.hh` L75-80): whether the point is in one of them. -/
noncomputable def withinHoles (verts : List ℝ) (p : V2 ℝ) : List (List (List Int)) → Res Bool
  | [] => .ok false
  | h :: hs => do
    let t ← withinBoundary verts p h
    if t = 1 then .ok true else withinHoles verts p hs

/-- `within` (`within.hh` L61-83). -/
noncomputable def within (verts : List ℝ) (p : V2 ℝ) (plc : PLC) : Res Bool := do
  let t ← withinBoundary verts p plc.facets
  let inHole ← withinHoles verts p plc.holes
  return (decide (0 < t) && !inHole)

end Verif.Geom
