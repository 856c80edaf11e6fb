import Verif.Model.Mpi
import Verif.Model.Mesh
import Verif.Model.Serialize
/-
Model of `/repo/src/DistributedTessellator.cc`, `computeDistributedTessellation`: the exchange of generators with the neighbours (L237-307), the removal of
neighbours nothing is shared with (L550-560) and the exchange that makes shared nodes bit-identical (L585-735). `DEBUG_MODE` is always defined (L29-33 define it as
`true` or `false`, and L632, L670, L693, L739 ask `#ifdef`), so the sizes are exchanged in release builds too.
-/
namespace Verif.Exch
open Verif Verif.Mesh Verif.Mpi
variable {R : Type}

/-- Exchange of generators, L237-307: state (`generators`, `gen2domain`). The points of process `p` are `pts p`, its neighbours `nb p` (L240). An `int` counts
the bytes of a message (L266), `localBufferSize` is an `unsigned` (L254). A message longer than the buffer of the receiver is an MPI error, a shorter one leaves the
`'\0'` of L286 in place. -/
def genProg (dbg : Bool) (D : Nat) (nb : Nat → List Nat) (pts : Nat → List (BitVec 64)) : Prog (List (BitVec 64) × List Nat) Serialize.Byte where
  nbrs := nb
  post p := do
    let buf := Serialize.ser (.vec (.prim 8)) (pts p) []
    let size := buf.length % 2 ^ 32
    let gens := pts p
    let g2d := List.replicate ((pts p).length / D) p
    if size = 0 then return ((nb p).map fun _ => (0, none), (gens, g2d))
    else if 2 ^ 31 ≤ size then .ub
    else return ((nb p).map fun _ => (size, some (buf.take size)), (gens, g2d))
  onSize _ _ _ sz := return decide (0 < sz)
  onData p s k sz c := do
    if sz < c.length then .abort else do
    let buf := c ++ List.replicate (sz - c.length) 0
    let (other, pos) ← Serialize.deser dbg (.vec (.prim 8)) [] buf 0
    Res.assert dbg (pos = buf.length)
    let gens := s.1 ++ other
    let q ← rd (nb p) k
    return (gens, Serialize.resize s.2 (gens.length / D) q)

/-- L550-560, from neighbour `i - 1` down: neighbours with nothing to share are erased. `operator[]` reads `sharedFaces[i]` only if `sharedNodes[i]` is empty;
erasing past the end is undefined. -/
def dropLoop : Nat → Tess R → Res (Tess R)
  | 0, m => .ok m
  | i + 1, m => do
    let a ← rd m.sharedNodes i
    if a.length = 0 then do
      let b ← rd m.sharedFaces i
      if b.length = 0 then do
        let _ ← rd m.neighborDomains i
        dropLoop i { m with neighborDomains := m.neighborDomains.eraseIdx i, sharedNodes := m.sharedNodes.eraseIdx i, sharedFaces := m.sharedFaces.eraseIdx i }
      else dropLoop i m
    else dropLoop i m

/-- L550-560. -/
def dropEmpty (m : Tess R) : Res (Tess R) := dropLoop m.neighborDomains.length m

/-- L589-599: the owner of each node, the lowest-ranked process known to share it. -/
def ownNodes (dbg : Bool) (D rank : Nat) (m : Tess R) : Res (List Nat) :=
  (List.range m.neighborDomains.length).foldlM (fun own k => do
    let l ← rd m.sharedNodes k
    l.foldlM (fun own i => do
      Res.assert dbg (i < m.nodes.length / D)
      let o ← rd own i
      let d ← rd m.neighborDomains k
      wr own i (min o d)) own) (List.replicate (m.nodes.length / D) rank)

/-- L644-654: the nodes to send to neighbour `d` and those to receive from it. -/
def splitNodes (dbg : Bool) (rank : Nat) (own : List Nat) (d : Nat) (l : List Nat) : Res (List Nat × List Nat) :=
  l.foldlM (fun s i => do
    let o ← rd own i
    Res.assert dbg (o ≤ rank)
    return if o = rank then (s.1 ++ [i], s.2) else if o = d then (s.1, s.2 ++ [i]) else s) ([], [])

/-- `extractCoords` (`/repo/src/DimensionTraits.hh` L66-79, L138-152). -/
def extractCoords (dbg : Bool) (D : Nat) (nodes : List R) (ids : List Nat) : Res (List R) :=
  ids.foldlM (fun c i => do
    Res.assert dbg (i < nodes.length / D)
    let v ← (List.range D).mapM fun k => rd nodes (D * i + k)
    return c ++ v) []

/-- One turn of the sending loop L640-682: the message to neighbour `k` and the nodes to receive from it. -/
def postNode (dbg : Bool) (D rank : Nat) (m : Tess R) (own : List Nat) (k : Nat) : Res ((Nat × Option (List R)) × List Nat) := do
  let l ← rd m.sharedNodes k
  let d ← rd m.neighborDomains k
  let (send, recv) ← splitNodes dbg rank own d l
  let size := D * send.length % 2 ^ 32
  if send.length = 0 then return ((size, none), recv)
  else do
    let c ← extractCoords dbg D m.nodes send
    Res.assert dbg (c.length = D * send.length)
    if 2 ^ 31 ≤ D * send.length then .ub else return ((size, some c), recv)

/-- L719-725: the coordinates received for the nodes `r`. -/
def unpack (D : Nat) (c : List R) (r : List Nat) (nodes : List R) : Res (List R) :=
  (List.range r.length).foldlM (fun nodes j => do
    let i ← rd r j
    (List.range D).foldlM (fun nodes k => do
      let v ← rd c (D * j + k)
      wr nodes (D * i + k) v) nodes) nodes

/-- Local state of the second exchange: `mesh.nodes` and `allRecvNodes`. -/
structure NodeState (R : Type) where
  nodes : List R
  recv : List (List Nat)

/-- Exchange of node coordinates, L585-735. `mesh p` is the mesh of process `p`; `zero` is what `recvCoords` is filled with. -/
def nodeProg (dbg : Bool) (D : Nat) (zero : R) (mesh : Nat → Tess R) : Prog (NodeState R) R where
  nbrs p := (mesh p).neighborDomains
  post p := do
    let own ← ownNodes dbg D p (mesh p)
    let l ← (List.range (mesh p).neighborDomains.length).mapM (postNode dbg D p (mesh p) own)
    return (l.map Prod.fst, ⟨(mesh p).nodes, l.map Prod.snd⟩)
  onSize _ s k sz := do
    let r ← rd s.recv k
    Res.assert dbg (sz = D * r.length)
    return decide (0 < r.length)
  onData _ s k _ c := do
    let r ← rd s.recv k
    if D * r.length < c.length then .abort else do
    let nodes ← unpack D (c ++ List.replicate (D * r.length - c.length) zero) r s.nodes
    return { s with nodes := nodes }
end Verif.Exch
