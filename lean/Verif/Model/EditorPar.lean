import Verif.Model.EditorEdges
import Verif.Model.Mpi
import Verif.Model.Serialize
import Mathlib.Data.List.Sort
/-
Model of the parallel part of edge cleaning, `MeshEditor::flagEdgesForCleaning` (`/repo/src/MeshEditor.cc` L266-505, `HAVE_MPI` and more than one process): the
edges shared with each neighbour, the exchange of the masks, and the masks made consistent. Every process calls `cleanEdges` with its own mesh; the processes are
interleaved by the exchange of `Verif.Model.Mpi`.
-/
namespace Verif.Editor
open Verif Verif.Mesh Verif.Internal Verif.Mpi

/-- `MeshEditor.cc` L297-306: `nodeIndexToSharePosition`, from the nodes shared with a neighbour; `N` is the number of nodes, the size of `sharedNodeReverse`. -/
def posMap (dbg : Bool) (N : Nat) : List Nat → KMap Nat → Res (KMap Nat)
  | [], pm => .ok pm
  | n :: ns, pm => do
    Res.assert dbg ((pm.lookup n).isNone = true)
    if n < N then posMap dbg N ns ((n, pm.length) :: pm.filter fun x => x.1 != n) else .ub

/-- `MeshEditor.cc` L318-333: what one local edge adds to `sharedEdges[ineighbor]`. -/
def sharedEdge (dbg : Bool) (N : Nat) (pm : KMap Nat) (e : Edge) : Res (Option Edge) := do
  Res.assert dbg (e.1 < e.2)
  Res.assert dbg (e.1 < N ∧ e.2 < N)
  match pm.lookup e.1, pm.lookup e.2 with
  | some i, some j => do
    Res.assert dbg (i ≠ j)
    return some (edgeKey i j)
  | _, _ => return none

/-- Not `internal::pairCompare(b, a)` (`/repo/src/polytope_internal.hh` L78-84). -/
def pairLe (a b : Edge) : Prop := a.1 < b.1 ∨ (a.1 = b.1 ∧ a.2 ≤ b.2)
instance : DecidableRel pairLe := fun a b => inferInstanceAs (Decidable (_ ∨ _))

/-- `MeshEditor.cc` L311-338: `sharedEdges[ineighbor]`. The map is walked in the order of its keys, here in the order of insertion: the sort that follows makes the
two the same. -/
def sharedEdgesOf (dbg : Bool) (N : Nat) (pm : KMap Nat) (keys : KMap Edge) : Res (List Edge) := do
  let l ← (keys.map Prod.fst).mapM (sharedEdge dbg N pm)
  return (l.filterMap id).insertionSort pairLe

/-- `MeshEditor.cc` L359-376 and L430-448: the number of the local edge that the shared edge `e` stands for. `sn` is `mMesh.sharedNodes[ineighbor]`. -/
def localEdge (dbg : Bool) (N : Nat) (sn : List Nat) (keys : KMap Edge) (e : Edge) : Res Nat := do
  Res.assert dbg (e.1 < sn.length ∧ e.2 < sn.length)
  let a ← rd sn e.1
  let b ← rd sn e.2
  Res.assert dbg (a < N ∧ b < N)
  Res.assert dbg (a ≠ b)
  match findKey (edgeKey a b) keys with
  | some i => return i
  | none => if dbg then .abort else .ub

/-- What a process knows about a neighbour (L288-292): `domainNodeMaps`, `sharedEdges`, `sharedEdgeMask`. -/
structure Share where
  pm : KMap Nat
  edges : List Edge
  mask : List (BitVec 32)

/-- `MeshEditor.cc` L294-379: one turn of the loop over the neighbours. The masks are `unsigned`. -/
def share (dbg : Bool) (N : Nat) (keys : KMap Edge) (emask : List Nat) (sn : List Nat) : Res Share := do
  let pm ← posMap dbg N sn []
  Res.assert dbg (pm.length = sn.length)
  let es ← sharedEdgesOf dbg N pm keys
  let mask ← es.mapM fun e => do
    let i ← localEdge dbg N sn keys e
    let x ← rd emask i
    return BitVec.ofNat 32 x
  return ⟨pm, es, mask⟩

/-- The loop over the neighbours, L294-379. -/
def shares {R : Type} (dbg : Bool) (N : Nat) (m : Tess R) (keys : KMap Edge) (emask : List Nat) : Res (List Share) :=
  (List.range m.neighborDomains.length).mapM fun k => do
    let sn ← rd m.sharedNodes k
    share dbg N keys emask sn

/-- `MeshEditor.cc` L382-398: the messages. `localBuffer` is not cleared between neighbours, and `serialize` appends to it; `localBufferSize` is an `unsigned` and
the byte count of a message an `int`. -/
def sendMasks : List (List (BitVec 32)) → List Serialize.Byte → Res (List (Nat × Option (List Serialize.Byte)))
  | [], _ => .ok []
  | w :: ws, buf => do
    let buf := Serialize.ser (.vec (.prim 4)) w buf
    let size := buf.length % 2 ^ 32
    let msg ← if size = 0 then Res.ok (0, none) else if 2 ^ 31 ≤ size then .ub else Res.ok (size, some (buf.take size))
    let ms ← sendMasks ws buf
    return msg :: ms

/-- The variables of a process that live through the exchange; `recv` is `neighborEdgeMasks`. -/
structure ParState (K : Type) where
  sc : Scan K
  fl : Flags
  sh : List Share
  recv : List (List (BitVec 32))

section
variable {R K : Type} [LinearOrder K] [Mul K] [Zero K]

/-- `MeshEditor.cc` L110-423 on several processes: from the call to the end of `MPI_Waitall`. `eager` says whether the MPI library copies a message before
`MPI_Isend` returns: if it need not, `localBufferSize` (L389, declared in the body of the loop) is read after its lifetime and `localBuffer` is changed by the next
turn while it is being sent, which is undefined. -/
def cleanProg (dbg eager : Bool) (D : Nat) (mesh : Nat → Tess R) (dist : List R → List R → K) (collin : List R → List R → List R → Bool) (tol : K) :
    Prog (ParState K) Serialize.Byte where
  nbrs p := (mesh p).neighborDomains
  post p := do
    Res.assert dbg (0 < tol)
    let (sc, _, fl) ← flagEdges dbg D (mesh p) dist collin tol
    let sh ← shares dbg ((mesh p).nodes.length / D) (mesh p) sc.keys fl.emask
    if eager = false ∧ (mesh p).neighborDomains ≠ [] then .ub else do
    let ms ← sendMasks (sh.map Share.mask) []
    return (ms, ⟨sc, fl, sh, List.replicate (mesh p).neighborDomains.length []⟩)
  onSize _ _ _ sz := return decide (0 < sz)
  onData _ s k sz c := do
    if sz < c.length then .abort else do
    let buf := c ++ List.replicate (sz - c.length) 0
    let (other, pos) ← Serialize.deser dbg (.vec (.prim 4)) [] buf 0
    Res.assert dbg (pos = buf.length)
    let recv ← wr s.recv k other
    return { s with recv := recv }

/-- `MeshEditor.cc` L428-452: `edgeMask[iedge] = max(edgeMask[iedge], neighborEdgeMasks[i][edgeCount])` for the edges shared with one neighbour, from number `c`
on. The assertion about the length of the neighbour's mask (L450) is commented out. -/
def mergeMask (dbg : Bool) (N : Nat) (sn : List Nat) (keys : KMap Edge) (recv : List (BitVec 32)) : List Edge → Nat → List Nat → Res (List Nat)
  | [], _, em => .ok em
  | e :: es, c, em => do
    let i ← localEdge dbg N sn keys e
    let x ← rd em i
    let y ← rd recv c
    let em ← wr em i (max x y.toNat)
    mergeMask dbg N sn keys recv es (c + 1) em

/-- `MeshEditor.cc` L427-454. -/
def mergeAll (dbg : Bool) (N : Nat) (m : Tess R) (st : ParState K) : Res (List Nat) :=
  (List.range m.neighborDomains.length).foldlM (fun em k => do
    let sn ← rd m.sharedNodes k
    let s ← rd st.sh k
    let recv ← rd st.recv k
    mergeMask dbg N sn st.sc.keys recv s.edges 0 em) st.fl.emask

/-- `sharedEdgeReverse[iedge]` (L289, L332): the neighbours that share both ends of the edge, in order. -/
def edgeNbrs (maps : List (KMap Nat)) (e : Edge) : List Nat :=
  (List.range maps.length).filter fun k => ((maps.getD k []).lookup e.1).isSome && ((maps.getD k []).lookup e.2).isSome

/-- `sharedNodeReverse[n].size() != 0` (L290, L305). -/
def nodeShared (maps : List (KMap Nat)) (n : Nat) : Bool := maps.any fun pm => (pm.lookup n).isSome

/-- `MeshEditor.cc` L474-493: the end of the edge that stays and the end that goes. -/
def keepDel (dbg : Bool) (maps : List (KMap Nat)) (e : Edge) : Res (Nat × Nat) :=
  match edgeNbrs maps e with
  | k :: ks => do
    Res.assert dbg (ks = [])
    let pm ← rd maps k
    return if (pm.lookup e.2).getD 0 < (pm.lookup e.1).getD 0 then (e.2, e.1) else e
  | [] => return if nodeShared maps e.2 && !nodeShared maps e.1 then (e.2, e.1) else e

/-- `MeshEditor.cc` L464-503: the loop over the edges `i, i+1, ..` (`n` of them), on `mNodeMask` and `nodeCollapse`. -/
def rebuild (dbg : Bool) (maps : List (KMap Nat)) (idx : List Edge) (em : List Nat) : Nat → Nat → List Nat × List Nat → Res (List Nat × List Nat)
  | _, 0, s => .ok s
  | i, n + 1, s => do
    let e ← rd idx i
    let x ← rd em i
    if x = 0 then do
      let (keep, del) ← keepDel dbg maps e
      let nm ← wr s.1 del 0
      let coll ← wr s.2 del keep
      rebuild dbg maps idx em (i + 1) n (nm, coll)
    else rebuild dbg maps idx em (i + 1) n s

/-- `MeshEditor.cc` L425-579 and L80: what a process does after `MPI_Waitall`, to the end of `cleanEdges`. The sum L457-458 is an `int`. -/
def finish (dbg : Bool) (D : Nat) (m : Tess R) (st : ParState K) : Res (Tess R) := do
  let em ← mergeAll dbg (m.nodes.length / D) m st
  if st.fl.clean = true ∨ em.sum = st.sc.keys.length then return m
  else do
    let (nmask, coll) ← rebuild dbg (st.sh.map Share.pm) st.sc.idx em 0 st.sc.keys.length
      (List.replicate (m.nodes.length / D) 1, List.range (m.nodes.length / D))
    let nm := nmask.map fun x => decide (x ≠ 0)
    let fm ← faceMask dbg (if D = 2 then 1 else 3) st.sc.keys em m.faces
    let nodeMap ← composeMap coll 0 (m.nodes.length / D) (rankMap nm 0)
    Res.assert dbg (nm.countP id < m.nodes.length / D)
    cleanMesh dbg D m (List.replicate m.cells.length 1) fm nm (List.range m.cells.length) (rankMap fm 0) nodeMap
end
end Verif.Editor
