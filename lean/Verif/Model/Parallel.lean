import Verif.Model.Mesh
import Verif.Model.Serialize
/-
Model of `/repo/src/SerialDistributedTessellator.cc`: every process receives all generators, computes the same serial tessellation, records what it shares
with the other processes and keeps its own cells.

The processes run the same program; the only communication is `MPI_Bcast`, after which every process holds the value of the root, so the data of one process is
a function of its rank and of the points of all processes. The tessellation itself is a parameter: the same mesh on every process.
-/
namespace Verif.Par
open Verif Verif.Mesh
variable {R : Type}

/-- `std::upper_bound(v.begin(), v.end(), x) - v.begin()` on a non-decreasing vector (L44-46). -/
def upperBound (v : List Nat) (x : Nat) : Nat := (v.takeWhile (· ≤ x)).length

/-- `std::lower_bound(v.begin(), v.end(), x) - v.begin()` on a non-decreasing vector (L180-182). -/
def lowerBound (v : List Nat) (x : Nat) : Nat := (v.takeWhile (· < x)).length

/-- `ownerRank` (L39-49). The result is a 32-bit `unsigned`. -/
def ownerRank (dbg : Bool) (icell : Nat) (offs : List Nat) : Res Nat := do
  Res.assert dbg (offs.length > 1)
  let back ← rd offs (offs.length - 1)
  Res.assert dbg (icell < back)
  let k := upperBound offs icell
  Res.assert dbg (0 < k ∧ k < offs.length)
  return if k = 0 then 2 ^ 32 - 1 else (k - 1) % 2 ^ 32

/-- What a process receives from `sendProc` (L93-99): the buffer, cut to its size as a 32-bit `unsigned`. `&buffer.front()` of an empty buffer is undefined. -/
def bcastBuffer (buf : List Serialize.Byte) : Res (List Serialize.Byte) :=
  if buf.length % 2 ^ 32 = 0 then .ub else .ok (buf.take (buf.length % 2 ^ 32))

/-- One turn of the loop L93-104; `pts` are the points of `sendProc`, the state is (`generators`, `genProcOffsets`). -/
def gatherStep (dbg : Bool) (D : Nat) (s : List (BitVec 64) × List Nat) (pts : List (BitVec 64)) : Res (List (BitVec 64) × List Nat) := do
  let buf ← bcastBuffer (Serialize.ser (.vec (.prim 8)) pts [])
  let (g, pos) ← Serialize.deser dbg (.vec (.prim 8)) s.1 buf 0
  Res.assert dbg (pos = buf.length)
  return (g, s.2 ++ [g.length / D % 2 ^ 32])

/-- L87-107: all generators, and the first cell of each process. `procs` are the points passed on each process. -/
def gather (dbg : Bool) (D : Nat) (procs : List (List (BitVec 64))) : Res (List (BitVec 64) × List Nat) := do
  let s ← procs.foldlM (gatherStep dbg D) ([], [0])
  Res.assert dbg (s.2.length = procs.length + 1)
  let back ← rd s.2 (s.2.length - 1)
  Res.assert dbg (back = s.1.length / D)
  return s

/-- `sharedNodes[k].push_back(v)` on a `std::map<unsigned, vector<unsigned>>` kept in key order. -/
def mapPush (k v : Nat) : List (Nat × List Nat) → List (Nat × List Nat)
  | [] => [(k, [v])]
  | (k', l) :: t =>
    if k < k' then (k, [v]) :: (k', l) :: t
    else if k' < k then (k', l) :: mapPush k v t
    else (k', l ++ [v]) :: t

/-- `sharedNodes[k]` read through `operator[]`: a missing key reads as the empty vector. -/
def mapGet (k : Nat) (t : List (Nat × List Nat)) : List Nat := ((t.find? (·.1 = k)).map (·.2)).getD []

/-- Innermost loop L141-147: record node `n` for the owner of every cell touching it. -/
def shareNode (dbg : Bool) (rank : Nat) (offs : List Nat) (n : Nat) (others : List Nat) (s : List (Nat × List Nat)) :
    Res (List (Nat × List Nat)) :=
  others.foldlM (fun s c => do
    let r ← ownerRank dbg c offs
    return if r ≠ rank then mapPush r n s else s) s

/-- The loops L134-150 over the faces of one cell and the nodes of each face. -/
def shareCellNodes (dbg : Bool) (rank : Nat) (offs : List Nat) (m : Tess R) (nodeCells : List (List Nat)) (s : List (Nat × List Nat)) (icell : Nat) :
    Res (List (Nat × List Nat)) := do
  let C ← rd m.cells icell
  C.foldlM (fun s f => do
    let F ← rd m.faces (posID f)
    F.foldlM (fun s n => do
      let others ← rd nodeCells n
      shareNode dbg rank offs n others s) s) s

/-- The cells of this process: `for (icell = genProcOffsets[rank]; icell != genProcOffsets[rank+1]; ++icell)` (L133, L167). The offsets do not decrease. -/
def ownCells (rank : Nat) (offs : List Nat) : Res (List Nat) := do
  let lo ← rd offs rank
  let hi ← rd offs (rank + 1)
  return List.range' lo (hi - lo)

/-- L131-164: the neighbour domains and the nodes shared with each. The mesh may already list neighbours; they stay. -/
def shareNodes (dbg : Bool) (D rank : Nat) (offs : List Nat) (m : Tess R) : Res (Tess R) := do
  let nodeCells ← computeNodeCells dbg D m
  let own ← ownCells rank offs
  let s ← own.foldlM (shareCellNodes dbg rank offs m nodeCells) []
  let nd := (m.neighborDomains ++ s.map (·.1)).mergeSort (· ≤ ·)
  return { m with neighborDomains := nd, sharedNodes := m.sharedNodes ++ nd.map fun k => uniq ((mapGet k s).mergeSort (· ≤ ·)) }

/-- Body of the loops L168-190: face `f` of cell `icell`. -/
def shareFace (dbg : Bool) (rank : Nat) (offs : List Nat) (m : Tess R) (icell : Nat) (sf : List (List Nat)) (f : Int) : Res (List (List Nat)) := do
  let fc ← rd m.faceCells (posID f)
  Res.assert dbg (fc.length = 1 ∨ fc.length = 2)
  Res.assert dbg (fc.head?.map posID = some icell ∨ fc.length = 2 ∧ (fc[1]?).map posID = some icell)
  if fc.length = 2 then do
    let c0 ← rd fc 0
    let c1 ← rd fc 1
    let r ← ownerRank dbg (if posID c0 = icell then posID c1 else posID c0) offs
    if r ≠ rank then do
      let j := lowerBound m.neighborDomains r
      Res.assert dbg (j < m.neighborDomains.length)
      let l ← rd sf j
      wr sf j (l ++ [posID f])
    else return sf
  else return sf

/-- L166-198: the faces shared with each neighbour. -/
def shareFaces (dbg : Bool) (rank : Nat) (offs : List Nat) (m : Tess R) : Res (Tess R) := do
  let own ← ownCells rank offs
  let sf0 := Serialize.resize m.sharedFaces m.neighborDomains.length []
  let sf ← own.foldlM (fun sf icell => do
    let C ← rd m.cells icell
    C.foldlM (shareFace dbg rank offs m icell) sf) sf0
  let sorted := sf.map (·.mergeSort (· ≤ ·))
  Res.assert dbg (∀ l ∈ sorted, uniq l = l)
  return { m with sharedFaces := sorted }

/-- L201-204: the mask of this process's cells. `fill` beyond the end of the mask is undefined. -/
def ownMask (rank : Nat) (offs : List Nat) (ncells : Nat) : Res (List Nat) := do
  let lo ← rd offs rank
  let hi ← rd offs (rank + 1)
  if hi ≤ ncells then return (List.range ncells).map fun i => if lo ≤ i ∧ i < hi then 1 else 0 else .ub

/-- `SerialDistributedTessellator::computeDistributedTessellation` (L76-226) on process `rank`, after the gathering of the generators: `m` is the mesh
`tessellationWrapper` returned (L110). Not included: the check of the result in debug builds (L219-223), modelled in `Model/DistCheck`. -/
def compute (dbg : Bool) (D rank : Nat) (offs : List Nat) (m : Tess R) : Res (Tess R) := do
  let m ← shareNodes dbg D rank offs m
  let m ← shareFaces dbg rank offs m
  let mask ← ownMask rank offs m.cells.length
  deleteCells dbg D m mask

/-- The whole method on process `rank`: `tess` is the serial tessellator. -/
def computeAll (dbg : Bool) (D : Nat) (tess : List (BitVec 64) → Res (Tess (BitVec 64))) (procs : List (List (BitVec 64))) (rank : Nat) :
    Res (Tess (BitVec 64)) := do
  let (gens, offs) ← gather dbg D procs
  let m ← tess gens
  compute dbg D rank offs m
end Verif.Par
