import Verif.Model.Orphanage
import Mathlib.Order.Defs.LinearOrder
/-
Model of `BoostOrphanage::adoptOrphans`, `/repo/src/BoostOrphanage.cc` L305-572. Boost.Geometry, the tessellation of the neighborhood and the
distances between dequantized points are parameters; coordinates are unbounded integers. Messages to `cerr` are left out.
-/
namespace Verif.Adopt
open Verif Verif.Orphanage Verif.Geom

/-- What `adoptOrphans` takes from outside: `boost_unionReduce` (L319, L370, L381), `boost_union` (L525), `boost_intersects`,
`callPrivateTessellate` (L423), the tests in `removeCollinearPointsFromPLC` and `simplifyPLC` at tolerance 1 (L419, L449, L564), the distance of
two dequantized points (L486-494) and its tolerance (L490). -/
structure Ext (R K : Type) where
  unionReduce : List IPlc → List IPlc
  union : IPlc → IPlc → List IPlc
  intersects : IPlc → Bool
  tess : List R → IPlc → Res (List IPlc)
  flat : V2 Int → V2 Int → V2 Int → Bool
  long : V2 Int → V2 Int → Bool
  dist : V2 Int → V2 Int → K
  tol : K

/-- The points of a polygon: `getPoint(plc, k)` (L159-165) for every `k < points.size()/2`; none of these reads is out of range. -/
def nodesOf : List Int → List (V2 Int)
  | x :: y :: r => ⟨x, y⟩ :: nodesOf r
  | _ => []

/-- `orphanNeighbors` (L324-349): a set of indices in ascending order. `cells` are those at the start, from which `point2cells` is made
once; `point2neighbor` is never read. -/
def neighbors (cells : List IPlc) (orphan : IPlc) : List Nat :=
  (List.range cells.length).filter fun j => (cells[j]?).any fun c => (nodesOf orphan.points).any fun p => decide (p ∈ nodesOf c.points)

/-- The search for an equal point of the old cell (L468-476), over its facets from the numbers `js` on. -/
def findEqual (points : List Int) (ip : V2 Int) : List Nat → Res (Option (V2 Int))
  | [] => .ok none
  | j :: js => do
    let jp ← getPt points (Int.ofNat j)
    if ip = jp then .ok (some jp) else findEqual points ip js

/-- The search for a close point (L486-496) and the test after it (L500): it ends at the first distance that is not greater than the tolerance. -/
def findNear {R K : Type} [LinearOrder K] (e : Ext R K) (points : List Int) (ip : V2 Int) : List Nat → Res (Option (V2 Int))
  | [] => .ok none
  | j :: js => do
    let jp ← getPt points (Int.ofNat j)
    if e.dist jp ip > e.tol then findNear e points ip js
    else if e.dist jp ip < e.tol then .ok (some jp) else .ok none

/-- One vertex of the new cell made consistent with the old cell (L468-511). -/
def snapPt {R K : Type} [LinearOrder K] (e : Ext R K) (old : IPlc) (ip : V2 Int) : Res (V2 Int) := do
  match ← findEqual old.points ip (List.range old.facets.length) with
  | some jp => .ok jp
  | none =>
    match ← findNear e old.points ip (List.range old.facets.length) with
    | some jp => .ok jp
    | none => .ok ip

/-- The walk of the new ring (L462-513) from facet `i` on. Simplified: the points are collected in order instead of written to an array of the
size of `cell.points`; `simplifyPLC` has just given the cell as many facets as points. -/
def snapLoop {R K : Type} [LinearOrder K] (e : Ext R K) (dbg : Bool) (old cell : IPlc) : List Nat → Res (List Int)
  | [] => .ok []
  | i :: is => do
    Res.assert dbg (i < cell.points.length / 2)
    let ip ← getPt cell.points (Int.ofNat i)
    let q ← snapPt e old ip
    let rest ← snapLoop e dbg old cell is
    return q.x :: q.y :: rest

/-- The polygon for one of several neighbors (L447-513). -/
def cellOfMany {R K : Type} [LinearOrder K] (e : Ext R K) (dbg : Bool) (nbhCells : List IPlc) (nbhIndex : Nat) (old : IPlc) : Res IPlc := do
  let c ← rd nbhCells nbhIndex
  let c ← simplifyWith e.long dbg c
  let pts ← snapLoop e dbg old c (List.range c.facets.length)
  return { c with points := pts }

/-- The polygon for the only neighbor (L523-558). The contract L536-558 looks at as many points of each polygon as it has facets; here at all points. -/
def cellOfOne {R K : Type} (e : Ext R K) (dbg : Bool) (orphan old : IPlc) : Res IPlc := do
  let u := e.union orphan old
  Res.assert dbg (u.length = 1)
  let c ← rd u 0
  Res.assert dbg (∀ p ∈ nodesOf c.points, p ∈ nodesOf orphan.points ∨ p ∈ nodesOf old.points)
  return c

/-- The body of the loop over the neighbors (L430-570). The assertions L434-442 are left out: the indices come from the set and from `cells`. -/
def adoptOne {R K : Type} [LinearOrder K] (e : Ext R K) (dbg : Bool) (many : Bool) (orphan : IPlc) (nbhCells : List IPlc) (nbhIndex index : Nat)
    (cells : List IPlc) : Res (List IPlc) := do
  let old ← rd cells index
  let cell ← (if many then cellOfMany e dbg nbhCells nbhIndex old else cellOfOne e dbg orphan old : Res IPlc)
  Res.assert dbg (cell.facets.length > 2)
  let cell ← removeCollinearWith e.flat dbg cell
  Res.assert dbg (cell.facets.length > 2)
  Res.assert dbg (e.intersects cell = false)
  wr cells index cell

/-- The loop over the neighbors (L430-570); the index in the neighborhood is the rank in the set. -/
def adoptLoop {R K : Type} [LinearOrder K] (e : Ext R K) (dbg : Bool) (many : Bool) (orphan : IPlc) (nbhCells : List IPlc) :
    List Nat → Nat → List IPlc → Res (List IPlc)
  | [], _, cells => .ok cells
  | index :: rest, k, cells => do
    let cells ← adoptOne e dbg many orphan nbhCells k index cells
    adoptLoop e dbg many orphan nbhCells rest (k + 1) cells

/-- The cells of the neighborhood (L357-423), for several neighbors. -/
def neighborhood {R K : Type} (e : Ext R K) (dbg : Bool) (points : List R) (orphan : IPlc) (nbs : List Nat) (cells : List IPlc) : Res (List IPlc) := do
  let pts ← nbs.mapM (rd points)
  let around ← nbs.mapM (rd cells)
  let nb := e.unionReduce (orphan :: around)
  Res.assert dbg (nb.length = 1)
  let nb := e.unionReduce (nb ++ [orphan])
  Res.assert dbg (nb.length = 1)
  let b ← rd nb 0
  Res.assert dbg (∀ p ∈ nodesOf b.points, p ∈ nodesOf orphan.points ∨ ∃ c ∈ around, p ∈ nodesOf c.points)
  let b ← removeCollinearWith e.flat dbg b
  Res.assert dbg (b.facets.length > 2)
  Res.assert dbg (e.intersects b = false)
  e.tess pts b

/-- The loop over the reduced orphans (L332-571). `cells0` are the cells from which `point2cells` was made. -/
def orphanLoop {R K : Type} [LinearOrder K] (e : Ext R K) (dbg : Bool) (points : List R) (cells0 : List IPlc) : List IPlc → List IPlc → Res (List IPlc)
  | [], cells => .ok cells
  | orphan :: rest, cells => do
    Res.assert dbg (orphan.facets ≠ [] ∧ orphan.points ≠ [])
    Res.assert dbg (e.intersects orphan = false)
    let nbs := neighbors cells0 orphan
    Res.assert dbg (nbs ≠ [])
    let nbhCells ← (if nbs.length > 1 then neighborhood e dbg points orphan nbs cells else .ok [] : Res (List IPlc))
    let cells ← adoptLoop e dbg (decide (nbs.length > 1)) orphan nbhCells nbs 0 cells
    orphanLoop e dbg points cells0 rest cells

/-- `adoptOrphans` (L305-572). The points are given one by one instead of flat. -/
def adoptOrphans {R K : Type} [LinearOrder K] (e : Ext R K) (dbg : Bool) (points : List R) (cells orphans : List IPlc) : Res (List IPlc) := do
  Res.assert dbg (points ≠ [])
  Res.assert dbg (cells ≠ [])
  Res.assert dbg (orphans ≠ [])
  Res.assert dbg (points.length = cells.length)
  let reduced := e.unionReduce orphans
  Res.assert dbg (reduced.length > 0 ∧ reduced.length ≤ orphans.length)
  orphanLoop e dbg points cells reduced cells

end Verif.Adopt
