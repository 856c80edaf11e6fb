import Verif.Model.Mesh
/-
Model of the C interface: `/repo/polytope_c/polytope_tessellation.cc`, `/repo/polytope_c/polytope_tessellator.cc` L20-199 and `/repo/polytope_c/polytope_plc.cc`.
Integers are unbounded; `malloc` always succeeds.
-/
namespace Verif.CApi
open Verif Verif.Mesh

/-! ### Meshes: `fill_tessellation` in both directions -/

/-- A block from `malloc`; `none` has not been written. -/
abbrev Arr (α : Type) := List (Option α)

/-- `malloc(n * sizeof(α))`. -/
def malloc {α : Type} (n : Nat) : Arr α := List.replicate n none

/-- `a[i]` for reading: reading what has not been written is undefined as well. -/
def get {α : Type} (a : Arr α) (i : Nat) : Res α :=
  match a[i]? with
  | some (some x) => .ok x
  | _ => .ub

/-- `std::copy` from a vector to `a + i`, and the inner loops L41-42. -/
def copyTo {α : Type} (a : Arr α) (i : Nat) : List α → Res (Arr α)
  | [] => .ok a
  | x :: xs => do
    let a ← wr a i (some x)
    copyTo a (i + 1) xs

/-- `std::copy` from the first `n` entries of `a`. -/
def copyFrom {α : Type} (a : Arr α) (n : Nat) : Res (List α) := (List.range n).mapM (get a)

/-- The loops of L38-44 (also L56-62, L102-108, L118-124), from row `i` on: the offsets and the entries. -/
def crsLoop {α : Type} (offs : Arr Int) (data : Arr α) (i : Nat) (offset : Nat) : List (List α) → Res (Arr Int × Arr α)
  | [] => do
    let offs ← wr offs i (some (offset : Int))
    return (offs, data)
  | r :: rs => do
    let offs ← wr offs i (some (offset : Int))
    let data ← copyTo data offset r
    crsLoop offs data (i + 1) (offset + r.length) rs

/-- L30-45 (also L48-63, L95-109, L111-125). There is room for `slots + 1` offsets. -/
def crs {α : Type} (slots : Nat) (rows : List (List α)) : Res (Arr Int × Arr α) := crsLoop (malloc (slots + 1)) (malloc (rows.flatten.length + 1)) 0 0 rows

/-- L142-148 (also L152-158, L185-196), for row `i`. `resize` with a negative number asks for more than any memory. -/
def uncrsRow {α : Type} (offs : Arr Int) (data : Arr α) (i : Nat) : Res (List α) := do
  let a ← get offs i
  let b ← get offs (i + 1)
  if a < 0 ∨ b < a then .ub else
  (List.range (b - a).toNat).mapM fun j => get data (a.toNat + j)

/-- `polytope_tessellation_t` (polytope_tessellation.h L11-78), without the node-cell arrays, which are never filled. -/
structure CTess (R : Type) where
  dimension : Nat
  numNodes : Nat := 0
  nodes : Arr R := []
  numCells : Nat := 0
  cellOffsets : Arr Int := []
  cellFaces : Arr Int := []
  numFaces : Nat := 0
  faceOffsets : Arr Int := []
  faceNodes : Arr Nat := []
  numBoundaryNodes : Nat := 0
  boundaryNodes : Arr Nat := []
  numBoundaryFaces : Nat := 0
  boundaryFaces : Arr Nat := []
  faceCells : Arr Int := []
  convexHull : Option PLC := none
  numNeighborDomains : Nat := 0
  neighborDomains : Arr Nat := []
  sharedNodeOffsets : Arr Int := []
  sharedNodes : Arr Nat := []
  sharedFaceOffsets : Arr Int := []
  sharedFaces : Arr Nat := []

/-- L77-81, from face `f` on. -/
def faceCellsLoop (a : Arr Int) (f : Nat) : List (List Int) → Res (Arr Int)
  | [] => .ok a
  | c :: cs => do
    let x ← rd c 0
    let a ← wr a (2 * f) (some x)
    let y ← (if c.length = 2 then rd c 1 else .ok (-1) : Res Int)
    let a ← wr a (2 * f + 1) (some y)
    faceCellsLoop a (f + 1) cs

/-- `fill_tessellation` from C++ to C (L22-130). `old` is what the C object held: its convex hull stays if the new mesh has none. -/
def exportTo {R : Type} (dbg : Bool) (dim : Nat) (t : Tess R) (old : CTess R) : Res (CTess R) := do
  let numNodes := t.nodes.length / dim
  let nodes ← copyTo (malloc (dim * numNodes)) 0 t.nodes
  let cells ← crs t.cells.length t.cells
  let faces ← crs t.faces.length t.faces
  let bn ← copyTo (malloc t.boundaryNodes.length) 0 t.boundaryNodes
  let bf ← copyTo (malloc t.boundaryFaces.length) 0 t.boundaryFaces
  Res.assert dbg (t.faces.length = t.faceCells.length)
  let fc ← faceCellsLoop (malloc (2 * t.faces.length)) 0 t.faceCells
  let nd ← copyTo (malloc t.neighborDomains.length) 0 t.neighborDomains
  let sn ← crs t.neighborDomains.length t.sharedNodes
  let sf ← crs t.neighborDomains.length t.sharedFaces
  return { dimension := old.dimension, numNodes := numNodes, nodes := nodes, numCells := t.cells.length, cellOffsets := cells.1, cellFaces := cells.2, numFaces := t.faces.length, faceOffsets := faces.1, faceNodes := faces.2,
           numBoundaryNodes := t.boundaryNodes.length, boundaryNodes := bn, numBoundaryFaces := t.boundaryFaces.length, boundaryFaces := bf, faceCells := fc,
           convexHull := if t.convexHull.facets = [] ∧ t.convexHull.holes = [] then old.convexHull else some t.convexHull,
           numNeighborDomains := t.neighborDomains.length, neighborDomains := nd, sharedNodeOffsets := sn.1, sharedNodes := sn.2, sharedFaceOffsets := sf.1, sharedFaces := sf.2 }

/-- L169-175, for face `i`. -/
def faceCellsRow (a : Arr Int) (i : Nat) : Res (List Int) := do
  let y ← get a (2 * i + 1)
  (List.range (if y ≠ -1 then 2 else 1)).mapM fun j => get a (2 * i + j)

/-- `fill_tessellation` from C to C++ (L134-199). `t` is what the C++ object held: its convex hull stays. -/
def importFrom {R : Type} (dim : Nat) (c : CTess R) (t : Tess R) : Res (Tess R) := do
  let nodes ← copyFrom c.nodes (dim * c.numNodes)
  let cells ← (List.range c.numCells).mapM (uncrsRow c.cellOffsets c.cellFaces)
  let faces ← (List.range c.numFaces).mapM (uncrsRow c.faceOffsets c.faceNodes)
  let bn ← copyFrom c.boundaryNodes c.numBoundaryNodes
  let bf ← copyFrom c.boundaryFaces c.numBoundaryFaces
  let fc ← (List.range c.numFaces).mapM (faceCellsRow c.faceCells)
  let nd ← copyFrom c.neighborDomains c.numNeighborDomains
  let sn ← (List.range c.numNeighborDomains).mapM (uncrsRow c.sharedNodeOffsets c.sharedNodes)
  let sf ← (List.range c.numNeighborDomains).mapM (uncrsRow c.sharedFaceOffsets c.sharedFaces)
  return { t with nodes := nodes, cells := cells, faces := faces, boundaryNodes := bn, boundaryFaces := bf, faceCells := fc, neighborDomains := nd, sharedNodes := sn, sharedFaces := sf }

/-! ### The memory of a mesh object -/

/-- A pointer: never set, `NULL`, or to a block. -/
inductive Ptr where
  | junk
  | null
  | at (n : Nat)
  deriving DecidableEq, Repr

/-- The pointers in `polytope_tessellation_t`. -/
inductive Fld where
  | nodes | cellOffsets | cellFaces | faceOffsets | faceNodes | boundaryNodes | boundaryFaces | faceCells | convexHull | neighborDomains | sharedNodeOffsets | sharedNodes | sharedFaceOffsets | sharedFaces
  | nodeCellOffsets | nodeCells
  deriving DecidableEq, Repr

/-- The mesh object and the blocks that are allocated; block numbers are never used twice. The object itself is block 0. -/
structure Mem where
  ptr : Fld → Ptr
  live : List Nat
  next : Nat

/-- `free(p)`. -/
def Mem.free (s : Mem) : Ptr → Res Mem
  | .junk => .ub
  | .null => .ok s
  | .at n => if n ∈ s.live then .ok { s with live := s.live.filter (· ≠ n) } else .ub

def Mem.set (s : Mem) (f : Fld) (p : Ptr) : Mem := { s with ptr := fun g => if g = f then p else s.ptr g }

/-- `polytope_tessellation_new` (polytope_tessellation.cc L14-42): all pointers but `face_cells` are set. -/
def new : Mem := { ptr := fun f => if f = .faceCells then .junk else .null, live := [0], next := 1 }

/-- One of the steps of `clear`: if the pointer `f` is not `NULL`, the pointers `gs` are freed, and set to `NULL` if `reset`. Comparing a pointer that has not been set is undefined. -/
def clearStep (s : Mem) (f : Fld) (gs : List Fld) (reset : Bool) : Res Mem :=
  match s.ptr f with
  | .junk => .ub
  | .null => .ok s
  | .at _ => gs.foldlM (fun s g => do
      let s ← s.free (s.ptr g)
      return if reset then s.set g .null else s) s

/-- `polytope_tessellation_clear` (L54-124). The convex hull, which `polytope_plc_free` frees in two steps, is one block here. -/
def clear (s : Mem) : Res Mem := do
  let s ← clearStep s .nodes [.nodes] true
  let s ← clearStep s .cellFaces [.cellOffsets, .cellFaces] true
  let s ← clearStep s .faceNodes [.faceOffsets, .faceNodes] true
  let s ← clearStep s .boundaryNodes [.boundaryNodes] false
  let s ← clearStep s .boundaryFaces [.boundaryFaces] false
  let s ← clearStep s .faceCells [.faceCells] false
  let s ← clearStep s .neighborDomains [.neighborDomains] true
  let s ← clearStep s .sharedNodeOffsets [.sharedNodeOffsets, .sharedNodes] true
  let s ← clearStep s .sharedFaceOffsets [.sharedFaceOffsets, .sharedFaces] true
  let s ← clearStep s .nodeCellOffsets [.nodeCellOffsets, .nodeCells] false
  let s ← clearStep s .convexHull [.convexHull] true
  return (s.set .nodeCellOffsets .null).set .nodeCells .null

/-- `polytope_tessellation_free` (L46-50). -/
def free (s : Mem) : Res Mem := do
  let s ← clear s
  s.free (.at 0)

/-- `p = malloc(size)`: `NULL` is possible only for size 0. -/
def Mem.alloc (s : Mem) (f : Fld) (null : Bool) : Mem :=
  if null then s.set f .null else { s.set f (.at s.next) with live := s.next :: s.live, next := s.next + 1 }

/-- What matters of a mesh for the memory: whether it has a convex hull, and for which of the arrays, if it is empty, `malloc` gives `NULL`. -/
structure Shape where
  hull : Bool
  nodes : Bool
  boundaryNodes : Bool
  boundaryFaces : Bool
  faceCells : Bool
  neighborDomains : Bool

/-- The allocations in `fill_tessellation` (polytope_tessellator.cc L22-130), which the three `tessellate` functions call. -/
def fill (m : Shape) (s : Mem) : Mem :=
  let s := s.alloc .nodes m.nodes
  let s := (s.alloc .cellOffsets false).alloc .cellFaces false
  let s := (s.alloc .faceOffsets false).alloc .faceNodes false
  let s := (s.alloc .boundaryNodes m.boundaryNodes).alloc .boundaryFaces m.boundaryFaces
  let s := s.alloc .faceCells m.faceCells
  let s := if m.hull then s.alloc .convexHull false else s
  let s := s.alloc .neighborDomains m.neighborDomains
  let s := (s.alloc .sharedNodeOffsets false).alloc .sharedNodes false
  (s.alloc .sharedFaceOffsets false).alloc .sharedFaces false

/-- What a C program does with a mesh object between `new` and `free`. -/
inductive Use where
  | tessellate (m : Shape)
  | clear

def use (s : Mem) : Use → Res Mem
  | .tessellate m => .ok (fill m s)
  | .clear => CApi.clear s

/-- `new`, some calls, `free`. -/
def life (us : List Use) : Res Mem := do
  let s ← us.foldlM use new
  CApi.free s

/-! ### PLCs (polytope_plc.cc) -/

/-- The calls that change a PLC. -/
inductive Edit where
  | addFacet
  | addFacetNode (facet node : Int)
  | addHole
  | addHoleFacet (hole : Int)
  | addHoleFacetNode (hole facet node : Int)
  | clear

/-- `(size_t)i`: a negative number becomes a huge one. -/
def toSize (n : Nat) (i : Int) : Nat := if i < 0 then n else i.toNat

/-- L47-99, L162-168: the PLC after a call, and the number that is returned if there is one. -/
def edit (dbg : Bool) (p : PLC) : Edit → Res (PLC × Option Nat)
  | .addFacet => .ok ({ p with facets := p.facets ++ [[]] }, some p.facets.length)
  | .addFacetNode facet node => do
    let f := toSize p.facets.length facet
    Res.assert dbg (f < p.facets.length)
    let F ← rd p.facets f
    let fs ← wr p.facets f (F ++ [node])
    return ({ p with facets := fs }, none)
  | .addHole => .ok ({ p with holes := p.holes ++ [[]] }, some p.holes.length)
  | .addHoleFacet hole => do
    let h := toSize p.holes.length hole
    Res.assert dbg (h < p.holes.length)
    let H ← rd p.holes h
    let hs ← wr p.holes h (H ++ [[]])
    return ({ p with holes := hs }, some H.length)
  | .addHoleFacetNode hole facet node => do
    let h := toSize p.holes.length hole
    Res.assert dbg (h < p.holes.length)
    let H ← rd p.holes h
    let f := toSize H.length facet
    Res.assert dbg (f < H.length)
    let F ← rd H f
    let H' ← wr H f (F ++ [node])
    let hs ← wr p.holes h H'
    return ({ p with holes := hs }, none)
  | .clear => .ok ({}, none)

/-- A sequence of calls, with the numbers that are returned. -/
def edits (dbg : Bool) (p : PLC) : List Edit → Res (PLC × List (Option Nat))
  | [] => .ok (p, [])
  | e :: es => do
    let r ← edit dbg p e
    let s ← edits dbg r.1 es
    return (s.1, r.2 :: s.2)

/-- `polytope_plc_num_facet_nodes` and `polytope_plc_get_facet_nodes` (L103-121). -/
def facetNodes (dbg : Bool) (p : PLC) (facet : Int) : Res (List Int) := do
  let f := toSize p.facets.length facet
  Res.assert dbg (f < p.facets.length)
  rd p.facets f

/-- `polytope_plc_num_hole_facets` (L125-132). -/
def numHoleFacets (dbg : Bool) (p : PLC) (hole : Int) : Res Nat := do
  let h := toSize p.holes.length hole
  Res.assert dbg (h < p.holes.length)
  let H ← rd p.holes h
  return H.length

/-- `polytope_plc_num_hole_facet_nodes` and `polytope_plc_get_hole_facet_nodes` (L136-158). -/
def holeFacetNodes (dbg : Bool) (p : PLC) (hole facet : Int) : Res (List Int) := do
  let h := toSize p.holes.length hole
  Res.assert dbg (h < p.holes.length)
  let H ← rd p.holes h
  let f := toSize H.length facet
  Res.assert dbg (f < H.length)
  rd H f

/-- `polytope_plc_fprintf` (L199-210): the text is read from a block to which `polytope_plc_snprintf` has written nothing. -/
def printPLC (p : PLC) : Res String := do
  let c ← get (malloc (α := Char) (128 * p.facets.length)) 0
  return c.toString

/-- `polytope_tessellation_fprintf` (polytope_tessellation.cc L128-149): `polytope_tessellation_snprintf` looks for the end of the text that is in the block, to which nothing has been written. -/
def printTess {R : Type} (t : CTess R) : Res String := do
  let c ← get (malloc (α := Char) (512 * t.numCells)) 0
  return c.toString
end Verif.CApi
