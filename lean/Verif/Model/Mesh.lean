import Verif.Model.Cxx
/-
Model of the mesh data structure `/repo/src/Tessellation.hh` and of `/repo/src/deleteCells.hh`,
`/repo/src/findBoundaryElements.hh`.
-/
namespace Verif

/-- One's complement of an `int`: `~x`. Used as the "reversed" mark on face and cell ids (`Tessellation.hh` L62-68). -/
def flip (x : Int) : Int := -x - 1

/-- `internal::positiveID` (`/repo/src/polytope_internal.hh` L139-143), also written inline as `x < 0 ? ~x : x`
(`deleteCells.hh` L42, L101, L129, `Tessellation.hh` L116, L137): the index behind a signed id. -/
def posID (x : Int) : Nat := if 0 ≤ x then x.toNat else (flip x).toNat

namespace Mesh

/-- `PLC` with unbounded integer indices (`/repo/src/PLC.hh` L12-29). -/
structure PLC where
  facets : List (List Int) := []
  holes : List (List (List Int)) := []
  deriving Repr, DecidableEq

/-- The data members of `Tessellation<Dimension, RealType>` (`/repo/src/Tessellation.hh` L57-104). `R` is the type of a coordinate.
`nodes` is the flat coordinate array. -/
structure Tess (R : Type) where
  nodes : List R := []
  cells : List (List Int) := []
  faces : List (List Nat) := []
  boundaryNodes : List Nat := []
  boundaryFaces : List Nat := []
  faceCells : List (List Int) := []
  convexHull : PLC := {}
  neighborDomains : List Nat := []
  sharedNodes : List (List Nat) := []
  sharedFaces : List (List Nat) := []
  deriving Repr, DecidableEq

/-! ### `deleteCells.hh` -/

/-- Inner loop of `deleteCells.hh` L45-51: mark the nodes of a face. `nn` is `mesh.nodes.size()/Dimension`. -/
def markNodes (dbg : Bool) (nn : Nat) : List Nat → List Bool → Res (List Bool)
  | [], nm => .ok nm
  | n :: ns, nm => do
    Res.assert dbg (n < nn)
    let nm ← wr nm n true
    markNodes dbg nn ns nm

/-- Middle loop L39-52: mark the faces of a cell and their nodes. The state is (node mask, face mask). -/
def markFaces (dbg : Bool) (nn : Nat) (faces : List (List Nat)) : List Int → List Bool × List Bool → Res (List Bool × List Bool)
  | [], s => .ok s
  | f :: fs, s => do
    Res.assert dbg (posID f < faces.length)
    let fm ← wr s.2 (posID f) true
    let ns ← rd faces (posID f)
    let nm ← markNodes dbg nn ns s.1
    markFaces dbg nn faces fs (nm, fm)

/-- Outer loop L37-54 over the cells, from cell `i` on. -/
def markCells (dbg : Bool) (nn : Nat) (faces : List (List Nat)) (cellMask : List Nat) :
    Nat → List (List Int) → List Bool × List Bool → Res (List Bool × List Bool)
  | _, [], s => .ok s
  | i, c :: cs, s => do
    let k ← rd cellMask i
    let s ← if k = 1 then markFaces dbg nn faces c s else .ok s
    markCells dbg nn faces cellMask (i + 1) cs s

/-- L57-69: `if (mask[i] == 1) old2new[i] = n1++`. The `std::map` is modelled as an array of optional values indexed by old id. -/
def renum : List Bool → Nat → List (Option Nat)
  | [], _ => []
  | true :: m, k => some k :: renum m (k + 1)
  | false :: m, k => none :: renum m k

/-- `old2new[i]` with `std::map::operator[]` (a missing key reads as 0). -/
def look (o2n : List (Option Nat)) (i : Nat) : Nat := (o2n[i]?.join).getD 0

/-- `old2new.find(i) != old2new.end()`. -/
def found (o2n : List (Option Nat)) (i : Nat) : Bool := (o2n[i]?.join).isSome

/-- The coordinates of node `i`: `nodes[Dimension*i] ... nodes[Dimension*(i+1) - 1]`. -/
def node (D : Nat) (m : Tess R) (i : Nat) : List R := (m.nodes.drop (D * i)).take D

/-- L72-81: the kept nodes' coordinates, from node `i` on. (`mask.length` is the number of nodes.) -/
def keepNodes (D : Nat) (m : Tess R) : Nat → List Bool → List R
  | _, [] => []
  | i, b :: bs => (if b then node D m i else []) ++ keepNodes D m (i + 1) bs

/-- L92-97: renumber the nodes of a kept face. -/
def renumFace (dbg : Bool) (o2nN : List (Option Nat)) : List Nat → Res (List Nat)
  | [] => .ok []
  | n :: ns => do
    Res.assert dbg (found o2nN n = true)
    let ns ← renumFace dbg o2nN ns
    return look o2nN n :: ns

/-- L101-104 (and L106-109): the renumbered entry of `faceCells`, if the cell is kept. -/
def renumFaceCell (cellMask : List Nat) (o2nC : List (Option Nat)) (c : Int) : Res (List Int) := do
  let k ← rd cellMask (posID c)
  if k = 1 then
    return [if c < 0 then flip (look o2nC (posID c)) else (look o2nC (posID c) : Int)]
  else
    return []

/-- L98-112: the renumbered `faceCells` of a kept face. -/
def renumFaceCells (dbg : Bool) (cellMask : List Nat) (o2nC : List (Option Nat)) (fc : List Int) : Res (List Int) := do
  Res.assert dbg (fc.length = 1 ∨ fc.length = 2)
  let c0 ← rd fc 0
  let r0 ← renumFaceCell cellMask o2nC c0
  let r1 ← if fc.length = 2 then do
      let c1 ← rd fc 1
      renumFaceCell cellMask o2nC c1
    else .ok []
  Res.assert dbg ((r0 ++ r1).length = 1 ∨ (r0 ++ r1).length = 2)
  return r0 ++ r1

/-- L84-117: the kept faces and their `faceCells`, from face `i` on. -/
def keepFaces (dbg : Bool) (m : Tess R) (cellMask : List Nat) (o2nN o2nC : List (Option Nat)) :
    Nat → List Bool → Res (List (List Nat) × List (List Int))
  | _, [] => .ok ([], [])
  | i, b :: bs =>
    if b then do
      let ns ← rd m.faces i
      let F ← renumFace dbg o2nN ns
      let fc ← rd m.faceCells i
      let C ← renumFaceCells dbg cellMask o2nC fc
      let r ← keepFaces dbg m cellMask o2nN o2nC (i + 1) bs
      return (F :: r.1, C :: r.2)
    else keepFaces dbg m cellMask o2nN o2nC (i + 1) bs

/-- L126-132: renumber the faces of a kept cell. -/
def renumCell (dbg : Bool) (o2nF : List (Option Nat)) : List Int → Res (List Int)
  | [] => .ok []
  | f :: fs => do
    Res.assert dbg (found o2nF (posID f) = true)
    let fs ← renumCell dbg o2nF fs
    return (if 0 ≤ f then (look o2nF (posID f) : Int) else flip (look o2nF (posID f))) :: fs

/-- L120-136: the kept cells, from cell `i` on. -/
def keepCells (dbg : Bool) (cellMask : List Nat) (o2nF : List (Option Nat)) : Nat → List (List Int) → Res (List (List Int))
  | _, [] => .ok []
  | i, c :: cs => do
    let k ← rd cellMask i
    if k = 1 then do
      let C ← renumCell dbg o2nF c
      let r ← keepCells dbg cellMask o2nF (i + 1) cs
      return C :: r
    else keepCells dbg cellMask o2nF (i + 1) cs

/-- L143-147 (and L148-152): filter and renumber one shared list. -/
def keepShared (mask : List Bool) (o2n : List (Option Nat)) : List Nat → Res (List Nat)
  | [] => .ok []
  | n :: ns => do
    let b ← rd mask n
    let r ← keepShared mask o2n ns
    return if b then look o2n n :: r else r

/-- The loop L141-155 over the neighbour domains, for one of the two tables. -/
def keepSharedAll (mask : List Bool) (o2n : List (Option Nat)) : List (List Nat) → Res (List (List Nat))
  | [] => .ok []
  | l :: ls => do
    let r ← keepShared mask o2n l
    let rs ← keepSharedAll mask o2n ls
    return r :: rs

/-- `deleteCells` (`/repo/src/deleteCells.hh` L23-165). `D` is the template parameter `Dimension`.
Simplifications: the loop over neighbour domains is run for the nodes and then for the faces instead of interleaved (the two tables are
independent); `sharedFaces` longer than `sharedNodes` in a release build keeps its tail unchanged in the C++ and is filtered here. -/
def deleteCells (dbg : Bool) (D : Nat) (m : Tess R) (cellMask : List Nat) : Res (Tess R) := do
  Res.assert dbg (cellMask.length = m.cells.length)
  Res.assert dbg (m.cells.length = 0 ∨ cellMask.max? = some 1)
  let nn := m.nodes.length / D
  let (nm, fm) ← markCells dbg nn m.faces cellMask 0 m.cells
    (List.replicate nn false, List.replicate m.faces.length false)
  let o2nN := renum nm 0
  let o2nF := renum fm 0
  let o2nC := renum ((List.range m.cells.length).map fun i => cellMask[i]? == some 1) 0
  let nodes := keepNodes D m 0 nm
  let (faces, faceCells) ← keepFaces dbg m cellMask o2nN o2nC 0 fm
  let cells ← keepCells dbg cellMask o2nF 0 m.cells
  Res.assert dbg (m.sharedFaces.length = m.sharedNodes.length)
  if m.sharedFaces.length < m.sharedNodes.length then .ub else do
  let sharedNodes ← keepSharedAll nm o2nN m.sharedNodes
  let sharedFaces ← keepSharedAll fm o2nF m.sharedFaces
  Res.assert dbg (nodes.length = D * nm.countP id)
  Res.assert dbg (faces.length = fm.countP id)
  Res.assert dbg (faceCells.length = fm.countP id)
  Res.assert dbg (cells.length = cellMask.countP (· = 1))
  return { m with
    nodes := nodes
    cells := cells
    faces := faces
    faceCells := faceCells
    sharedNodes := sharedNodes
    sharedFaces := sharedFaces
    convexHull := {} }

/-! ### Queries of `Tessellation.hh` -/

/-- Insert into a `std::set`. Sets are modelled as lists without duplicates (order is not observable through them). -/
def setInsert (s : List Nat) (x : Nat) : List Nat := if x ∈ s then s else s ++ [x]

/-- Inner loop of `computeNodeCells` (`Tessellation.hh` L117-123). -/
def nodeCellsFace (dbg : Bool) (i : Nat) : List Nat → List (List Nat) → Res (List (List Nat))
  | [], r => .ok r
  | n :: ns, r => do
    Res.assert dbg (n < r.length)
    let s ← rd r n
    let r ← wr r n (setInsert s i)
    nodeCellsFace dbg i ns r

/-- Middle loop L112-124. -/
def nodeCellsCell (dbg : Bool) (faces : List (List Nat)) (i : Nat) : List Int → List (List Nat) → Res (List (List Nat))
  | [], r => .ok r
  | f :: fs, r => do
    let ns ← rd faces (posID f)
    let r ← nodeCellsFace dbg i ns r
    nodeCellsCell dbg faces i fs r

/-- Outer loop L110-125 from cell `i` on. -/
def nodeCellsLoop (dbg : Bool) (faces : List (List Nat)) : Nat → List (List Int) → List (List Nat) → Res (List (List Nat))
  | _, [], r => .ok r
  | i, c :: cs, r => do
    let r ← nodeCellsCell dbg faces i c r
    nodeCellsLoop dbg faces (i + 1) cs r

/-- `Tessellation::computeNodeCells` (`Tessellation.hh` L107-127). -/
def computeNodeCells (dbg : Bool) (D : Nat) (m : Tess R) : Res (List (List Nat)) :=
  nodeCellsLoop dbg m.faces 0 m.cells (List.replicate (m.nodes.length / D) [])

/-- Inner loop of `computeCellToNodes` (`Tessellation.hh` L139-143), assertion against the flat coordinate count as in the code. -/
def cellNodesFace (dbg : Bool) (nflat : Nat) : List Nat → List Nat → Res (List Nat)
  | [], s => .ok s
  | n :: ns, s => do
    Res.assert dbg (n < nflat)
    cellNodesFace dbg nflat ns (setInsert s n)

/-- Middle loop L135-144. -/
def cellNodesCell (dbg : Bool) (m : Tess R) : List Int → List Nat → Res (List Nat)
  | [], s => .ok s
  | f :: fs, s => do
    Res.assert dbg (posID f < m.faceCells.length)
    let ns ← rd m.faces (posID f)
    let s ← cellNodesFace dbg m.nodes.length ns s
    cellNodesCell dbg m fs s

/-- `Tessellation::computeCellToNodes` (`Tessellation.hh` L131-147). -/
def computeCellToNodes (dbg : Bool) (m : Tess R) : Res (List (List Nat)) :=
  m.cells.mapM (fun c => cellNodesCell dbg m c [])

/-- `Tessellation::clear` (`Tessellation.hh` L34-46). -/
def clear (m : Tess R) : Tess R :=
  { m with nodes := [], cells := [], faces := [], boundaryNodes := [], boundaryFaces := [], faceCells := []
           convexHull := { facets := [], holes := [] }, neighborDomains := [], sharedNodes := [], sharedFaces := [] }

/-- `Tessellation::empty` (`Tessellation.hh` L50-55) with `PLC::empty` (`PLC.hh` L38-41). -/
def empty (m : Tess R) : Bool :=
  m.nodes.isEmpty && m.cells.isEmpty && m.faces.isEmpty && m.boundaryNodes.isEmpty && m.boundaryFaces.isEmpty &&
  m.faceCells.isEmpty && (m.convexHull.facets.isEmpty && m.convexHull.holes.isEmpty)

/-! ### `findBoundaryElements.hh` -/

/-- The loop L25-33 from face `i` on: boundary faces, and the nodes of boundary faces in walking order. -/
def boundaryLoop (dbg : Bool) (m : Tess R) : Nat → List (List Nat) → Res (List Nat × List Nat)
  | _, [] => .ok ([], [])
  | i, F :: Fs => do
    let fc ← rd m.faceCells i
    Res.assert dbg (fc.length = 1 ∨ fc.length = 2)
    let r ← boundaryLoop dbg m (i + 1) Fs
    return if fc.length = 1 then (i :: r.1, F ++ r.2) else r

/-- `std::unique` followed by `erase` on a sorted list (L35): drop an element equal to the previous one. -/
def uniq : List Nat → List Nat
  | [] => []
  | [a] => [a]
  | a :: b :: l => if a = b then uniq (b :: l) else a :: uniq (b :: l)

/-- `findBoundaryElements` (`/repo/src/findBoundaryElements.hh` L20-39): returns (boundaryFaces, boundaryNodes). `std::sort` is modelled by
a merge sort. -/
def findBoundaryElements (dbg : Bool) (m : Tess R) : Res (List Nat × List Nat) := do
  let r ← boundaryLoop dbg m 0 m.faces
  let bn := uniq (r.2.mergeSort (· ≤ ·))
  Res.assert dbg (bn.length > 0)
  Res.assert dbg (bn.length ≤ m.nodes.length / 2)
  return (r.1, bn)

end Mesh
end Verif
