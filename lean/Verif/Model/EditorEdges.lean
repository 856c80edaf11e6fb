import Verif.Model.Editor
import Verif.Model.Internal
import Mathlib.Order.Defs.LinearOrder
/-
Model of `MeshEditor::cleanEdges` / `flagEdgesForCleaning` (`/repo/src/MeshEditor.cc` L70-86, L96-579), the serial path: the block
L266-505 (`HAVE_MPI` and more than one process) is in `Model/EditorPar`. `R` is the type of a coordinate and `K` the type of a length. The two geometric
primitives are parameters: `dist` is `geometry::distance<Dimension>` and `collin` is `geometry::collinear<Dimension>(.., 1e-8)`, both functions of node
coordinates; nothing about them is assumed in the model.
-/
namespace Verif.Editor
open Verif Verif.Mesh Verif.Internal

/-- `EdgeType` with node ids (`/repo/src/MeshEditor.hh` L18). -/
abbrev Edge := Nat × Nat

/-- `internal::hashEdge` on node ids (`/repo/src/polytope_internal.hh` L127-134); see `hashEdge_natCast` for the link with the model of the original. -/
def edgeKey (a b : Nat) : Edge := if a < b then (a, b) else (b, a)

/-- `MeshEditor.cc` L139-142 (and L514-517): the edges of a face, in order: `maxNodeIndex` is 1 for a two-node face and the number of nodes otherwise. -/
def faceEdges (F : List Nat) : List Edge :=
  (List.range (if F.length = 2 then 1 else F.length)).map fun k => (F.getD k 0, F.getD ((k + 1) % F.length) 0)

/-- What the scan of the cells collects (`MeshEditor.cc` L113-119): `keys` = `edgeToIndex`, `idx` = `indexToEdge`, `len` = `edgeLength`, and `border` = the
(node, face) pairs pushed into `borderNodesToBorderFaces`, in order; `borderNodes` is the set of their first components. -/
structure Scan (K : Type) where
  keys : KMap Edge := []
  idx : List Edge := []
  len : List K := []
  border : List (Nat × Nat) := []

section
variable {R K : Type}

/-- `MeshEditor.cc` L141-157: one edge of a face of a cell. -/
def scanEdge (dbg : Bool) (D : Nat) (m : Tess R) (dist : List R → List R → K) (st : Scan K) (e : Edge) : Res (Nat × Scan K) := do
  Res.assert dbg (e.1 ≠ e.2)
  Res.assert dbg (e.1 < m.nodes.length / D ∧ e.2 < m.nodes.length / D)
  let key := edgeKey e.1 e.2
  let r := addKey key st.keys
  if r.1 = st.keys.length then
    if e.1 < m.nodes.length / D ∧ e.2 < m.nodes.length / D then
      return (r.1, { st with keys := r.2, idx := st.idx ++ [key], len := st.len ++ [dist (node D m e.1) (node D m e.2)] })
    else .ub
  else return (r.1, { st with keys := r.2 })

/-- The loop L140-170 over the edges of a face: the ids pushed into `cellEdgeIDs` and the new state. -/
def scanEdges (dbg : Bool) (D : Nat) (m : Tess R) (dist : List R → List R → K) : List Edge → Scan K → Res (List Nat × Scan K)
  | [], st => .ok ([], st)
  | e :: es, st => do
    let r ← scanEdge dbg D m dist st e
    let s ← scanEdges dbg D m dist es r.2
    return (r.1 :: s.1, s.2)

/-- `MeshEditor.cc` L125-170: one face of a cell. -/
def scanFace (dbg : Bool) (D : Nat) (m : Tess R) (dist : List R → List R → K) (st : Scan K) (s : Int) : Res (List Nat × Scan K) := do
  Res.assert dbg (posID s < m.faces.length)
  let F ← rd m.faces (posID s)
  Res.assert dbg (F.length ≥ 2)
  let fc ← rd m.faceCells (posID s)
  Res.assert dbg (fc.length = 1 ∨ fc.length = 2)
  let st1 := if fc.length = 1 then { st with border := st.border ++ F.map fun n => (n, posID s) } else st
  scanEdges dbg D m dist (faceEdges F) st1

/-- The loop L123-171 over the faces of a cell. -/
def scanCell (dbg : Bool) (D : Nat) (m : Tess R) (dist : List R → List R → K) : List Int → Scan K → Res (List Nat × Scan K)
  | [], st => .ok ([], st)
  | s :: ss, st => do
    let r ← scanFace dbg D m dist st s
    let t ← scanCell dbg D m dist ss r.2
    return (r.1 ++ t.1, t.2)

/-- The loop L121-173 over the cells: `cellToEdges` and the final state. -/
def scanCells (dbg : Bool) (D : Nat) (m : Tess R) (dist : List R → List R → K) : List (List Int) → Scan K → Res (List (List Nat) × Scan K)
  | [], st => .ok ([], st)
  | c :: cs, st => do
    let r ← scanCell dbg D m dist c st
    let t ← scanCells dbg D m dist cs r.2
    return (r.1 :: t.1, t.2)

/-- `borderNodes.find(n) != borderNodes.end()`. -/
def isBorder (border : List (Nat × Nat)) (n : Nat) : Bool := (border.map Prod.fst).contains n

/-- `borderNodesToBorderFaces[n]`. -/
def borderFacesOf (border : List (Nat × Nat)) (n : Nat) : List Nat := (border.filter fun p => p.1 == n).map Prod.snd

/-- `MeshEditor.cc` L190-201: the other ends of the border faces of node `n`. -/
def otherNodes (dbg : Bool) (m : Tess R) (n : Nat) : List Nat → Res (List Nat)
  | [] => .ok []
  | f :: fs => do
    Res.assert dbg (f < m.faces.length)
    let F ← rd m.faces f
    let fc ← rd m.faceCells f
    Res.assert dbg (fc.length = 1)
    Res.assert dbg (F.length = 2)
    let f0 ← rd F 0
    let o ← if f0 = n then rd F 1 else rd F 0
    let r ← otherNodes dbg m n fs
    return o :: r

/-- `MeshEditor.cc` L181-211, from the border node list on: the corner nodes. The coordinates are read at `2*id` in every dimension, as in the code. -/
def corners (dbg : Bool) (D : Nat) (m : Tess R) (collin : List R → List R → List R → Bool) (border : List (Nat × Nat)) : List Nat → Res (List Nat)
  | [] => .ok []
  | n :: ns => do
    Res.assert dbg (n < m.nodes.length / D)
    let bf := borderFacesOf border n
    Res.assert dbg (bf.length = 2)
    let others ← otherNodes dbg m n bf
    Res.assert dbg (others.length = 2)
    let o0 ← rd others 0
    let o1 ← rd others 1
    let at2 := fun k => (m.nodes.drop (2 * k)).take D
    let r ← corners dbg D m collin border ns
    return if collin (at2 n) (at2 o0) (at2 o1) then r else n :: r

/-- L219-221: the longest edge of a cell, starting from 0. -/
def maxLen [LinearOrder K] [Zero K] (len : List K) : List Nat → K → Res K
  | [], acc => .ok acc
  | e :: es, acc => do
    let l ← rd len e
    maxLen len es (max acc l)

/-- L222-224: `maxCellEdgeLength[e] = max(maxCellEdgeLength[e], maxCellEdge)` for the edges of a cell. -/
def raiseMax [LinearOrder K] (v : K) : List Nat → List K → Res (List K)
  | [], mx => .ok mx
  | e :: es, mx => do
    let x ← rd mx e
    let mx ← wr mx e (max x v)
    raiseMax v es mx

/-- L215-225. -/
def maxLens [LinearOrder K] [Zero K] (len : List K) : List (List Nat) → List K → Res (List K)
  | [], mx => .ok mx
  | es :: rest, mx => do
    let v ← maxLen len es 0
    let mx ← raiseMax v es mx
    maxLens len rest mx

/-- State of the flagging loop (`MeshEditor.cc` L228-233): `edgeMask`, `mNodeMask`, `nodeCollapse`, `edgesClean`. -/
structure Flags where
  emask : List Nat
  nmask : List Nat
  coll : List Nat
  clean : Bool

/-- `MeshEditor.cc` L234-261: one step of the loop over the edges. -/
def flagStep [LinearOrder K] [Mul K] (tol : K) (len mx : List K) (border : List (Nat × Nat)) (corner : List Nat) (idx : List Edge) (i : Nat) (s : Flags) :
    Res Flags := do
  let e ← rd idx i
  let l ← rd len i
  let M ← rd mx i
  let m0 ← rd s.nmask e.1
  let m1 ← rd s.nmask e.2
  if l < tol * M ∧ m0 = 1 ∧ m1 = 1 ∧ ¬ (e.1 ∈ corner ∨ e.2 ∈ corner) then do
    let emask ← wr s.emask i 0
    let keep1 : Bool := decide (e.2 ∈ corner) || (isBorder border e.2 && !isBorder border e.1)
    let keep := if keep1 then e.2 else e.1
    let del := if keep1 then e.1 else e.2
    let nmask ← wr s.nmask keep 2
    let nmask ← wr nmask del 0
    let coll ← wr s.coll del keep
    return { emask := emask, nmask := nmask, coll := coll, clean := false }
  else return s

/-- The loop L234-262 over the edges `i, i+1, ..` (`n` of them). -/
def flagLoop [LinearOrder K] [Mul K] (tol : K) (len mx : List K) (border : List (Nat × Nat)) (corner : List Nat) (idx : List Edge) :
    Nat → Nat → Flags → Res Flags
  | _, 0, s => .ok s
  | i, n + 1, s => do
    let s ← flagStep tol len mx border corner idx i s
    flagLoop tol len mx border corner idx (i + 1) n s

/-- `edgeToIndex.find(edge)`. -/
def findKey [DecidableEq κ] (k : κ) (m : KMap κ) : Option Nat := m.lookup k

/-- `MeshEditor.cc` L513-522: the number of active edges of a face. -/
def activeEdges (dbg : Bool) (keys : KMap Edge) (emask : List Nat) : List Edge → Res Nat
  | [] => .ok 0
  | e :: es => do
    Res.assert dbg (e.1 ≠ e.2)
    let i ← match findKey (edgeKey e.1 e.2) keys with
      | some i => Res.ok i
      | none => if dbg then .abort else .ub
    let x ← rd emask i
    let r ← activeEdges dbg keys emask es
    return x + r

/-- `MeshEditor.cc` L508-533: the face mask. `minEdges` is `minEdgesPerFace` (1 in 2D, 3 in 3D, L852-853). -/
def faceMask (dbg : Bool) (minEdges : Nat) (keys : KMap Edge) (emask : List Nat) : List (List Nat) → Res (List Bool)
  | [] => .ok []
  | F :: Fs => do
    let a ← activeEdges dbg keys emask (faceEdges F)
    let r ← faceMask dbg minEdges keys emask Fs
    return (!decide (a < minEdges)) :: r

/-- `MeshEditor.cc` L542-544: `nodeMap[i] = nodeMap[nodeCollapse[i]]` in place, for `i, i+1, ..` (`n` of them). -/
def composeMap (coll : List Nat) : Nat → Nat → List Nat → Res (List Nat)
  | _, 0, nodeMap => .ok nodeMap
  | i, n + 1, nodeMap => do
    let c ← rd coll i
    let v ← rd nodeMap c
    let nodeMap ← wr nodeMap i v
    composeMap coll (i + 1) n nodeMap

/-- What `flagEdgesForCleaning` hands to `cleanMesh`, or `none` when all edges are clean. -/
structure Plan where
  fm : List Bool
  nm : List Bool
  faceMap : List Nat
  nodeMap : List Nat

/-- The state of the flagging loop on entry (L228-233). -/
def Flags.init (nedges nnodes : Nat) : Flags :=
  { emask := List.replicate nedges 1, nmask := List.replicate nnodes 1, coll := List.range nnodes, clean := true }

/-- `MeshEditor.cc` L110-262: from the mesh to the flagged edges. Returns the scan, the corner nodes and the flags. -/
def flagEdges [LinearOrder K] [Mul K] [Zero K] (dbg : Bool) (D : Nat) (m : Tess R) (dist : List R → List R → K)
    (collin : List R → List R → List R → Bool) (tol : K) : Res (Scan K × List Nat × Flags) := do
  Res.assert dbg (0 < tol)
  let (cellEdges, sc) ← scanCells dbg D m dist m.cells {}
  Res.assert dbg (sc.keys.length = sc.len.length)
  Res.assert dbg (cellEdges.length = m.cells.length)
  Res.assert dbg (sc.keys.length = sc.idx.length)
  let corner ← corners dbg D m collin sc.border (sc.border.map Prod.fst).eraseDups
  let mx ← maxLens sc.len cellEdges (List.replicate sc.keys.length 0)
  let fl ← flagLoop tol sc.len mx sc.border corner sc.idx 0 sc.keys.length (Flags.init sc.keys.length (m.nodes.length / D))
  return (sc, corner, fl)

/-- `MeshEditor::flagEdgesForCleaning` (`MeshEditor.cc` L96-579) without the parallel block. After L263 the node mask holds 0 and 1 only: an entry is
kept iff it is not 0. The assertions L546, L555, L571-573 compare sums of masks with their own counts and are left out; the one at L576 is kept. -/
def flagEdgesForCleaning [LinearOrder K] [Mul K] [Zero K] (dbg : Bool) (D : Nat) (m : Tess R) (dist : List R → List R → K)
    (collin : List R → List R → List R → Bool) (tol : K) : Res (Option Plan) := do
  let (sc, _, fl) ← flagEdges dbg D m dist collin tol
  if fl.clean then return none
  else do
    let nm := fl.nmask.map fun x => decide (x ≠ 0)
    let fm ← faceMask dbg (if D = 2 then 1 else 3) sc.keys fl.emask m.faces
    let nodeMap ← composeMap fl.coll 0 (m.nodes.length / D) (rankMap nm 0)
    Res.assert dbg (nm.countP id < m.nodes.length / D)
    return some { fm := fm, nm := nm, faceMap := rankMap fm 0, nodeMap := nodeMap }

/-- `MeshEditor::cleanEdges` (`MeshEditor.cc` L70-86): the edited mesh. -/
def cleanEdges [LinearOrder K] [Mul K] [Zero K] (dbg : Bool) (D : Nat) (m : Tess R) (dist : List R → List R → K)
    (collin : List R → List R → List R → Bool) (tol : K) : Res (Tess R) := do
  Res.assert dbg (0 < tol)
  let plan ← flagEdgesForCleaning dbg D m dist collin tol
  match plan with
  | none => return m
  | some p => cleanMesh dbg D m (List.replicate m.cells.length 1) p.fm p.nm (List.range m.cells.length) p.faceMap p.nodeMap

end
end Verif.Editor
