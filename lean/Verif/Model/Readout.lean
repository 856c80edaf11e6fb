import Verif.Model.Internal
import Verif.Model.IntPointMap
import Verif.Model.Quant
/-
Model of the loops that number nodes and edges while reading out cells: `/repo/src/BoostTessellator.cc` L64-173 (`tessellateQuantized`) and
`/repo/src/clipQuantizedTessellation2d.cc` L121-432 (`clipQuantizedTessellation`). What Boost computes (the Voronoi diagram, the intersections and unions of
polygons) is an input here: rings of integer vertices. The two files contain the same numbering loop over two different node maps; the map is a parameter.
-/
namespace Verif.Readout
open Verif Verif.Mesh Verif.Internal Verif.PointMap

/-- An integer position. -/
abbrev P2 := Int × Int

/-- What the loops build. `map` is `node2id`, `emap` is `edge2id`. -/
structure RO (σ : Type) where
  map : σ
  nodes : List P2 := []
  emap : KMap (Int × Int) := []
  edges : List (Int × Int) := []
  cells : List (List Int) := []

/-- How a node map answers: given the map, the number of nodes so far and a position, the id, whether the position is a new node, and the new map. -/
abbrev Look (σ : Type) := σ → Nat → P2 → Res (Nat × Bool × σ)

/-- `std::map<IntPoint, int>` with `addKeyToMap` (`BoostTessellator.cc` L136-141). `IntPoint::operator<` compares both coordinates and not the index. -/
def boostLook (dbg : Bool) : Look (KMap P2) := fun m n p => do
  let r := addKey p m
  if r.1 = m.length then
    Res.assert dbg (r.1 = n)
    return (r.1, true, r.2)
  else return (r.1, false, r.2)

/-- `IntPointMap<2>(2)` (`clipQuantizedTessellation2d.cc` L212-213). -/
def clipLook (dbg : Bool) : Look PMap := fun m n p => do
  let r ← index dbg m [p.1, p.2]
  return (r.1, decide (r.1 = n), r.2)

/-- Insert a vertex (Boost L134-150, clip L209-227 and L332-350). `newNodeCells`, which only serves to find the neighbours
of orphans, is left out. -/
def roVertex {σ : Type} (look : Look σ) (p : P2) (s : RO σ) : Res (Nat × RO σ) := do
  let r ← look s.map s.nodes.length p
  return (r.1, { s with map := r.2.2, nodes := if r.2.1 then s.nodes ++ [p] else s.nodes })

/-- Insert an edge into cell `i` (Boost L152-169, clip L229-245 and L352-368). -/
def roEdge {σ : Type} (dbg : Bool) (look : Look σ) (i : Nat) (p0 p1 : P2) (s : RO σ) : Res (RO σ) := do
  let a ← roVertex look p0 s
  let b ← roVertex look p1 a.2
  let s := b.2
  if a.1 = b.1 then return s
  else
    let e ← hashEdge dbg a.1 b.1
    Res.assert dbg ((e.1 = a.1 ∧ e.2 = b.1) ∨ (e.1 = b.1 ∧ e.2 = a.1))
    let r := addKey e s.emap
    Res.assert dbg (r.1 = s.emap.length → r.1 = s.edges.length)
    let c ← rd s.cells i
    let cells ← wr s.cells i (c ++ [if e.1 = a.1 then (r.1 : Int) else flip r.1])
    return { s with emap := r.2, edges := if r.1 = s.emap.length then s.edges ++ [e] else s.edges, cells := cells }

/-- The loop over the sides of one cell. -/
def roSides {σ : Type} (dbg : Bool) (look : Look σ) (i : Nat) : List (P2 × P2) → RO σ → Res (RO σ)
  | [], s => .ok s
  | e :: es, s => do
    let s ← roEdge dbg look i e.1 e.2 s
    roSides dbg look i es s

/-! ### `BoostTessellator::tessellateQuantized` -/

/-- A half edge of the Voronoi diagram: its two vertices, truncated to integers; a null pointer is `none`. -/
abbrev VEdge := Option P2 × Option P2

/-- A cell of the Voronoi diagram: the index of its generator, whether it contains a point, and its half edges in the order of the loop L115-170, which starts
after `incident_edge()` and ends with it. -/
structure VCell where
  index : Nat
  point : Bool := true
  edges : List VEdge

/-- L121-131: both vertices of the half edge must exist. With neither, already the message for the assertion dereferences a null pointer. -/
def finite (dbg : Bool) : VEdge → Res (P2 × P2)
  | (some p, some q) => .ok (p, q)
  | (none, none) => .ub
  | _ => if dbg then .abort else .ub

/-- L114-170 for one cell. A null `incident_edge()` is dereferenced. -/
def boostCell (dbg : Bool) (i : Nat) : List VEdge → RO (KMap P2) → Res (RO (KMap P2))
  | [], s => .ok s
  | e :: es, s => do
    let pq ← finite dbg e
    let s ← roEdge dbg (boostLook dbg) i pq.1 pq.2 s
    boostCell dbg i es s

/-- L101-172. Guard generators have indices from `n` on. -/
def boostCells (dbg : Bool) (n : Nat) : List VCell → RO (KMap P2) → Res (RO (KMap P2))
  | [], s => .ok s
  | c :: cs, s =>
    if c.point ∧ c.index < n then
      if c.edges = [] then .ub else do
      let s ← boostCell dbg c.index c.edges s
      boostCells dbg n cs s
    else boostCells dbg n cs s

/-- `tessellateQuantized` for `n` generators, into a `result` without nodes and edges. -/
def boostRead (dbg : Bool) (n : Nat) (cells : List VCell) : Res (RO (KMap P2)) := boostCells dbg n cells { map := [], cells := List.replicate n [] }

/-- The quantized tessellation after `tessellateQuantized`. The nodes have index 0 (`IntPoint(x, y)`, `Point.hh` L24). -/
def boostQT {σ : Type} (q : Verif.Geom.QT) (s : RO σ) : Verif.Geom.QT := { q with nodes := s.nodes.map fun p => ⟨p.1, p.2, 0⟩, edges := s.edges, cellEdges := s.cells }

/-! ### `clipQuantizedTessellation` -/

/-- The consecutive pairs of a ring: vertex `j` with vertex `j + 1` (L205-207). -/
def openSides : List P2 → List (P2 × P2)
  | p :: q :: r => (p, q) :: openSides (q :: r)
  | _ => []

/-- L202-246, cell by cell: the ring that the intersection with the boundary gave cell `i`, first vertex repeated at the end. An empty ring makes `nverts-1` wrap
around. -/
def clipCells (dbg : Bool) : Nat → List (List P2) → RO PMap → Res (RO PMap)
  | _, [], s => .ok s
  | i, ring :: rings, s => do
    Res.assert dbg (3 < ring.length)
    if ring = [] then .ub else
    Res.assert dbg (ring.head? = ring.getLast?)
    let s ← roSides dbg (clipLook dbg) i (openSides ring) s
    clipCells dbg (i + 1) rings s

/-- L329-330: vertex `j` with vertex `(j + 1) % nverts`. -/
def closedSides (ring : List P2) : List (P2 × P2) := ring.zip (ring.rotate 1)

/-- L326-369: the cells rebuilt for the orphans, in order: the cell and its new ring. -/
def clipAgain (dbg : Bool) : List (Nat × List P2) → RO PMap → Res (RO PMap)
  | [], s => .ok s
  | c :: cs, s => do
    let cells ← wr s.cells c.1 []
    let s ← roSides dbg (clipLook dbg) c.1 (closedSides c.2) { s with cells := cells }
    clipAgain dbg cs s

/-- `bp::contains(segment, point)`: the point is on the closed segment. -/
def onSegment (a b p : P2) : Bool :=
  decide ((b.1 - a.1) * (p.2 - a.2) = (b.2 - a.2) * (p.1 - a.1) ∧ min a.1 b.1 ≤ p.1 ∧ p.1 ≤ max a.1 b.1 ∧ min a.2 b.2 ≤ p.2 ∧ p.2 ≤ max a.2 b.2)

/-- `*(poly.begin() + k)`: a negative offset reads before the vector. -/
def atOffset (poly : List P2) (k : Int) : Res P2 := if k < 0 then .ub else rd poly k.toNat

/-- The loop L38-41 of `removeCollinearPoints`, `todo` iterations from `i` on. `%` is the remainder of C++, which truncates. -/
def trimLoop (poly : List P2) : Nat → Nat → Res (List P2)
  | 0, _ => .ok []
  | todo + 1, i => do
    let a ← atOffset poly (((i : Int) - 1).tmod poly.length)
    let b ← atOffset poly (((i : Int) + 1).tmod poly.length)
    let p ← atOffset poly i
    let rest ← trimLoop poly todo (i + 1)
    return if onSegment a b p then rest else p :: rest

/-- `removeCollinearPoints` (L26-46). For an empty polygon the remainder by zero is undefined. -/
def removeCollinear (dbg : Bool) (poly : List P2) : Res (List P2) := if poly = [] then .ub else do
  let points ← trimLoop poly (poly.length - 1) 0
  Res.assert dbg (3 ≤ points.length)
  return points

/-- L321-369 with the call of `removeCollinearPoints` that precedes the reading of every rebuilt cell: `again` has the rings as the intersection gives them. -/
def clipAgainCode (dbg : Bool) : List (Nat × List P2) → RO PMap → Res (RO PMap)
  | [], s => .ok s
  | c :: cs, s => do
    let ring ← removeCollinear dbg c.2
    let cells ← wr s.cells c.1 []
    let s ← roSides dbg (clipLook dbg) c.1 (closedSides ring) { s with cells := cells }
    clipAgainCode dbg cs s

/-- L380-387: count the uses of the edges, for the rest of the cells flattened. -/
def countUses (dbg : Bool) (n : Nat) : List Int → List Nat → Res (List Nat)
  | [], u => .ok u
  | k :: ks, u => do
    Res.assert dbg (posID k < n)
    let c ← rd u (posID k)
    let u ← wr u (posID k) (c + 1)
    countUses dbg n ks u

/-- L390-394, L419-422: the entries without use, from `i` on. -/
def unused : Nat → List Nat → List Nat
  | _, [] => []
  | i, c :: cs => if c = 0 then i :: unused (i + 1) cs else unused (i + 1) cs

/-- L401-407 for one entry. -/
def patchEdge (dbg : Bool) (o2n : List Int) (k : Int) : Res Int :=
  if k < 0 then do
    let j ← rd o2n (flip k).toNat
    Res.assert dbg (j ≠ -1)
    return flip j
  else do
    let j ← rd o2n k.toNat
    Res.assert dbg (j ≠ -1)
    return j

/-- L413-416: count the uses of the nodes. -/
def countNodes : List (Int × Int) → List Nat → Res (List Nat)
  | [], u => .ok u
  | e :: es, u => if e.1 < 0 ∨ e.2 < 0 then .ub else do
    let c ← rd u e.1.toNat
    let u ← wr u e.1.toNat (c + 1)
    let c ← rd u e.2.toNat
    let u ← wr u e.2.toNat (c + 1)
    countNodes es u

/-- L427-430 for one edge. -/
def patchNodes (dbg : Bool) (o2n : List Int) (e : Int × Int) : Res (Int × Int) := if e.1 < 0 ∨ e.2 < 0 then .ub else do
  let a ← rd o2n e.1.toNat
  Res.assert dbg (a ≠ -1)
  let b ← rd o2n e.2.toNat
  Res.assert dbg (b ≠ -1)
  return (a, b)

/-- L376-432: drop the edges and nodes that are not used and renumber. Nodes, edges, cells. -/
def compact {α : Type} (dbg : Bool) (nodes : List α) (edges : List (Int × Int)) (cells : List (List Int)) : Res (List α × List (Int × Int) × List (List Int)) := do
  let use ← countUses dbg edges.length cells.flatten (List.replicate edges.length 0)
  Res.assert dbg (∀ u ∈ use, u ≤ 2)
  let es ← removeElements dbg edges (unused 0 use)
  let cells ← cells.mapM fun c => c.mapM (patchEdge dbg es.2)
  let use ← countNodes es.1 (List.replicate nodes.length 0)
  let ns ← removeElements dbg nodes (unused 0 use)
  let edges ← es.1.mapM (patchNodes dbg ns.2)
  return (ns.1, edges, cells)

/-- The whole of L121-432 as it is: the rings of all cells, the number of orphans, and the rings of the cells rebuilt for them. -/
def clipCode (dbg : Bool) (rings : List (List P2)) (orphans : Nat) (again : List (Nat × List P2)) : Res (List P2 × List (Int × Int) × List (List Int)) := do
  let s ← clipCells dbg 0 rings { map := new 2 2, cells := List.replicate rings.length [] }
  let s ← clipAgainCode dbg again s
  if 0 < orphans then compact dbg s.nodes s.edges s.cells
  else return (s.nodes, s.edges, s.cells)

/-- The same without `removeCollinearPoints`: `again` has the rings after the removal of collinear points. -/
def clipRead (dbg : Bool) (rings : List (List P2)) (orphans : Nat) (again : List (Nat × List P2)) : Res (List P2 × List (Int × Int) × List (List Int)) := do
  let s ← clipCells dbg 0 rings { map := new 2 2, cells := List.replicate rings.length [] }
  let s ← clipAgain dbg again s
  if 0 < orphans then compact dbg s.nodes s.edges s.cells
  else return (s.nodes, s.edges, s.cells)

end Verif.Readout
