import Verif.Model.Readout
import Verif.Model.Circum
/-
Model of `/repo/src/TriangleTessellator.cc`: the construction of the cells from the Delaunay triangulation, `tessellateQuantized` L353-505, and its helpers L140-257. What the library Triangle
computes is an input: the list of triangles, as triples of point numbers. Points `0 … n-1` are the generators, the points from `n` on are guards.
-/
namespace Verif.Tri
open Verif Verif.Mesh Verif.Internal Verif.Geom Verif.Readout

/-- The point numbers of a triangle. -/
abbrev Tri3 := Nat × Nat × Nat

/-- `findOtherTriIndices` (L140-156). -/
def otherTwo (dbg : Bool) (t : Tri3) (a : Nat) : Res (Nat × Nat) := do
  Res.assert dbg (a = t.1 ∨ a = t.2.1 ∨ a = t.2.2)
  Res.assert dbg (t.1 ≠ t.2.1 ∧ t.1 ≠ t.2.2 ∧ t.2.1 ≠ t.2.2)
  return if a ≠ t.1 then (t.1, if a ≠ t.2.1 then t.2.1 else t.2.2) else (t.2.1, t.2.2)

/-! ### `computeSortedFaceNodes` (L163-257)

The sets `nodes2edges[x]` of edges are sets of positions in `edges` here. The caller passes the elements of a `std::set`, in increasing order and each once, so the order of the
positions is the order of the edges. -/

/-- L189-201: the edges at the ends of an open chain. State: (orderedEdges, nodes2edges). -/
def findEnds (use : Int → Nat) : Nat → List Edge → List Nat × N2E → List Nat × N2E
  | _, [], s => s
  | i, e :: es, s =>
    if (use e.1 = 1 ∧ use e.2 = 2) ∨ (use e.1 = 2 ∧ use e.2 = 1) then findEnds use (i + 1) es (s.1 ++ [i], n2eErase (n2eErase s.2 e.1 i) e.2 i)
    else findEnds use (i + 1) es s

/-- One turn of the loop L232-242: the node that edge `order[i]` has in common with the next one. -/
def commonNode (dbg : Bool) (edges : List Edge) (order : List Nat) (i : Nat) : Res Int := do
  let a ← rd order i
  let b ← rd order ((i + 1) % edges.length)
  let e ← rd edges a
  let f ← rd edges b
  Res.assert dbg (e.1 = f.1 ∨ e.1 = f.2 ∨ e.2 = f.1 ∨ e.2 = f.2)
  return if e.1 = f.1 ∨ e.1 = f.2 then e.1 else e.2

/-- The loop L232-242 from `i` on, `k` turns. -/
def commonNodes (dbg : Bool) (edges : List Edge) (order : List Nat) : Nat → Nat → Res (List Int)
  | _, 0 => .ok []
  | i, k + 1 => do
    let x ← commonNode dbg edges order i
    let r ← commonNodes dbg edges order (i + 1) k
    return x :: r

/-- The end of an edge that is used once, or the second one (L226-227). -/
def looseEnd (use : Int → Nat) (e : Edge) : Int := if use e.1 = 1 then e.1 else e.2

/-- `computeSortedFaceNodes`. -/
def sortedFaceNodes (dbg : Bool) (edges : List Edge) : Res (List Int) :=
  match edges with
  | [] => .ok []
  | [e] => .ok [e.1, e.2]
  | e0 :: _ => do
    let inv := invertEdges 0 edges (fun _ => [], fun _ => 0)
    let h := findEnds inv.2 0 edges ([], inv.1)
    Res.assert dbg (h.1.length = 0 ∨ h.1.length = 2)
    match h.1 with
    | [] => do
      let order ← walkEdges dbg edges edges.length [] h.2 e0.1
      let r ← commonNodes dbg edges order 0 edges.length
      Res.assert dbg (r.length = edges.length)
      return r
    | a :: as => do
      let l ← rd edges ((a :: as).getLast (by simp))
      Res.assert dbg (inv.2 l.1 = 2 ∨ inv.2 l.2 = 2)
      let order ← walkEdges dbg edges (edges.length - h.1.length) h.1 h.2 (if inv.2 l.1 = 2 then l.1 else l.2)
      let x0 ← rd order 0
      let x1 ← rd order 1
      let f0 ← rd edges x0
      let f1 ← rd edges x1
      let r ← commonNodes dbg edges order 1 (edges.length - 1)
      Res.assert dbg ((looseEnd inv.2 f0 :: looseEnd inv.2 f1 :: r).length = edges.length + 1)
      return looseEnd inv.2 f0 :: looseEnd inv.2 f1 :: r

/-! ### `tessellateQuantized` -/

/-- The tables of the first loop. `gen2tri` (a `std::set` per generator) and `dedge` (the map `dedge2tris`) hold triangle numbers in increasing order; an edge without an entry has none. -/
structure TriS where
  nodes : List P2 := []
  gen2tri : List (List Nat)
  tri2gens : List Tri3
  dedge : Edge → List Nat := fun _ => []
  tri2id : List Int

/-- `gen2tri[g].insert(i)`. -/
def addTri (l : List (List Nat)) (g i : Nat) : Res (List (List Nat)) := do
  let s ← rd l g
  wr l g (if i ∈ s then s else s ++ [i])

/-- `dedge2tris[e].push_back(i)`. -/
def pushTri (d : Edge → List Nat) (e : Edge) (i : Nat) : Edge → List Nat := fun x => if x = e then d x ++ [i] else d x

/-- `quantize` (`QuantizedTessellation2d.cc` L75-82). -/
noncomputable def quantize2 (q : QT) (p : V2 ℝ) : Res P2 := do
  let x ← quantize1 cmin2 cmax2 q.length q.xmin p.x
  let y ← quantize1 cmin2 cmax2 q.length q.ymin p.y
  return (x, y)

/-- `dequantize` (`QuantizedTessellation2d.cc` L86-93). -/
noncomputable def dequantize2 (q : QT) (p : IPt) : V2 ℝ := ⟨dequantize1 cmin2 cmax2 q.length q.xmin p.x, dequantize1 cmin2 cmax2 q.length q.ymin p.y⟩

/-- L383-402: whether triangle `t` counts, and its quantized circumcentre. `pts` is `delaunay.pointlist`. A flat triangle has no circumcentre: the conversion of the quotient by zero to an integer
is undefined. -/
noncomputable def triCentre (dbg : Bool) (q : QT) (pts : List (V2 ℝ)) (n : Nat) (t : Tri3) : Res (Option P2) := do
  Res.assert dbg (t.1 ≠ t.2.1 ∧ t.1 ≠ t.2.2 ∧ t.2.1 ≠ t.2.2)
  let a ← rd pts t.1
  let b ← rd pts t.2.1
  let c ← rd pts t.2.2
  Res.assert dbg (orient2d a b c > 0)
  let qa ← quantize2 q a
  let qb ← quantize2 q b
  let qc ← quantize2 q c
  if (t.1 < n ∨ t.2.1 < n ∨ t.2.2 < n) ∧ (qa ≠ qb ∧ qb ≠ qc ∧ qa ≠ qc) then
    if orient2d a b c = 0 then .ub
    else do
      let x ← quantize2 q (circumcenter a b c)
      return some x
  else return none

/-- L400-417: enter triangle `i`. The counter `k` is the number of nodes, as the assertion L396 says. -/
def triStore (dbg : Bool) (i : Nat) (t : Tri3) (c : P2) (s : TriS) : Res TriS := do
  let pq ← hashEdge dbg t.1 t.2.1
  let pr ← hashEdge dbg t.1 t.2.2
  let qr ← hashEdge dbg t.2.1 t.2.2
  let g ← addTri s.gen2tri t.1 i
  let g ← addTri g t.2.1 i
  let g ← addTri g t.2.2 i
  let t2g ← wr s.tri2gens i t
  let ids ← wr s.tri2id i (s.nodes.length : Int)
  return { nodes := s.nodes ++ [c], gen2tri := g, tri2gens := t2g, dedge := pushTri (pushTri (pushTri s.dedge pq i) pr i) qr i, tri2id := ids }

/-- The loop L382-418 from triangle `i` on. `centre` is `triCentre`. -/
def triScan (dbg : Bool) (centre : Tri3 → Res (Option P2)) : Nat → List Tri3 → TriS → Res TriS
  | _, [], s => .ok s
  | i, t :: ts, s => do
    match ← centre t with
    | none => triScan dbg centre (i + 1) ts s
    | some c => do
      let s ← triStore dbg i t c s
      triScan dbg centre (i + 1) ts s

/-- The key of the edge between two points. -/
def ekey (a b : Nat) : Edge := if (a : Int) < b then (a, b) else (b, a)

/-- The keys of the three edges of a triangle. -/
def ekeys (t : Tri3) : List Edge := [ekey t.1 t.2.1, ekey t.1 t.2.2, ekey t.2.1 t.2.2]

/-- The contract L421-432: the entries of `dedge2tris` are those of the edges of the triangles that were entered. -/
def triContract (n : Nat) (s : TriS) : Bool :=
  ((s.tri2gens.zip s.tri2id).all fun x => decide (x.2 < 0) || (ekeys x.1).all fun e => decide ((s.dedge e).length = 1 ∨ (s.dedge e).length = 2)) &&
  (List.range n).all fun i => decide (3 ≤ (s.gen2tri.getD i []).length)

/-- `std::set<EdgeHash>::insert`, in an increasing list. -/
def setInsert (e : Edge) : List Edge → List Edge
  | [] => [e]
  | x :: xs => if e = x then x :: xs else if e.1 < x.1 ∨ (e.1 = x.1 ∧ e.2 < x.2) then e :: x :: xs else x :: setInsert e xs

/-- L459-467 and L469-474: the edge of the cell across the Delaunay edge `e` of triangle `i`, whose node is `ii`. -/
def triAcross (dbg : Bool) (s : TriS) (i : Nat) (ii : Int) (e : Edge) (m : List Edge) : Res (List Edge) := do
  Res.assert dbg ((s.dedge e).length = 2 ∧ ((s.dedge e).getD 0 0 = i ∨ (s.dedge e).getD 1 0 = i))
  let d0 ← rd (s.dedge e) 0
  let k ← if d0 = i then rd (s.dedge e) 1 else .ok d0
  let jj ← rd s.tri2id k
  Res.assert dbg (0 ≤ jj ∧ jj < s.nodes.length)
  if jj ≠ ii then do
    let h ← hashEdge dbg ii jj
    return setInsert h m
  else return m

/-- The loop L445-475 over the triangles of generator `p`. -/
def triEdges (dbg : Bool) (s : TriS) (p : Nat) : List Nat → List Edge → Res (List Edge)
  | [], m => .ok m
  | i :: is, m => do
    let ii ← rd s.tri2id i
    Res.assert dbg (0 ≤ ii ∧ ii < s.nodes.length)
    let t ← rd s.tri2gens i
    let qr ← otherTwo dbg t p
    Res.assert dbg (p ≠ qr.1 ∧ p ≠ qr.2)
    let pq ← hashEdge dbg p qr.1
    let pr ← hashEdge dbg p qr.2
    let m ← triAcross dbg s i ii pq m
    let m ← triAcross dbg s i ii pr m
    triEdges dbg s p is m

/-- What the second loop builds. `emap` is `edge2id`. -/
structure TriC where
  emap : KMap Edge := []
  edges : List Edge := []
  cells : List (List Int)

/-- One turn of the loop L482-499: the edge of cell `p` from node `ii` to node `jj`. -/
def triSide (dbg : Bool) (p : Nat) (ii jj : Int) (c : TriC) : Res TriC := do
  Res.assert dbg (ii ≠ jj)
  let e ← hashEdge dbg ii jj
  Res.assert dbg ((e.1 = ii ∧ e.2 = jj) ∨ (e.1 = jj ∧ e.2 = ii))
  let r := addKey e c.emap
  Res.assert dbg (r.1 = c.emap.length → r.1 = c.edges.length)
  let l ← rd c.cells p
  let cells ← wr c.cells p (l ++ [if e.1 = ii then (r.1 : Int) else flip r.1])
  return { emap := r.2, edges := if r.1 = c.emap.length then c.edges ++ [e] else c.edges, cells := cells }

/-- The loop L482-499 over consecutive nodes. -/
def triSides (dbg : Bool) (p : Nat) : List (Int × Int) → TriC → Res TriC
  | [], c => .ok c
  | x :: xs, c => do
    let c ← triSide dbg p x.1 x.2 c
    triSides dbg p xs c

/-- The consecutive pairs of a closed list: entry `i` with entry `(i + 1) % n`. -/
def cyclicPairs {α : Type} (l : List α) : List (α × α) := l.zip (l.rotate 1)

/-- The loop L441-500 over the generators from `p` on, `k` of them. -/
def triCells (dbg : Bool) (s : TriS) : Nat → Nat → TriC → Res TriC
  | _, 0, c => .ok c
  | p, k + 1, c => do
    let tris ← rd s.gen2tri p
    let m ← triEdges dbg s p tris []
    let nodes ← sortedFaceNodes dbg m
    Res.assert dbg (nodes.length ≥ 3)
    let c ← triSides dbg p (cyclicPairs nodes) c
    triCells dbg s (p + 1) k c

/-- L373-500: from the triangles to nodes, edges and cells, for `n` generators of `total` points. -/
def triRead (dbg : Bool) (centre : Tri3 → Res (Option P2)) (n total : Nat) (tris : List Tri3) : Res (List P2 × List Edge × List (List Int)) := do
  let s ← triScan dbg centre 0 tris { gen2tri := List.replicate total [], tri2gens := List.replicate tris.length (0, 0, 0), tri2id := List.replicate tris.length (-1) }
  Res.assert dbg (triContract n s = true)
  let c ← triCells dbg s 0 n { cells := List.replicate n [] }
  return (s.nodes, c.edges, c.cells)

/-- `tessellateQuantized` (L353-505), into a `result` without nodes and edges. `delaunay` is what Triangle makes of a list of points; it returns the points unchanged, and L123-130 stop if there is no
triangle. -/
noncomputable def triangleTess (delaunay : List (V2 ℝ) → List Tri3) (dbg : Bool) (q : QT) : Res QT := do
  let pts := (q.generators ++ q.guards).map (dequantize2 q)
  let tris := delaunay pts
  if tris = [] then .abort
  else do
    let r ← triRead dbg (triCentre dbg q pts q.generators.length) q.generators.length pts.length tris
    return { q with nodes := r.1.map fun p => ⟨p.1, p.2, 0⟩, edges := r.2.1, cellEdges := r.2.2 }
end Verif.Tri
