import Verif.Model.Exchange
/-
Model of `/repo/src/DistributedTessellator.cc` L341-560: how a process finds out which faces and nodes of its halo mesh (the tessellation of its own generators
and those of its neighbours) it shares with which neighbour, how it orders them, and how it removes the cells of the others. `g2d` is `gen2domain`.
-/
namespace Verif.Exch
open Verif Verif.Mesh
variable {R κ : Type}

/-- `proc2offset[q]` (L344-345): the map assigns to each neighbour its last position; `operator[]` gives 0 for a process that is not a neighbour. -/
def offsetOf (nd : List Nat) (q : Nat) : Nat := (((List.range nd.length).filter fun i => nd[i]? = some q).getLast?).getD 0

/-- Inner turn of L366-370 and L385-389: `i` is filed under the process `q` that owns the other cell, unless it is this process. -/
def file (dbg : Bool) (rank : Nat) (nd : List Nat) (q i : Nat) (t : List (List Nat)) : Res (List (List Nat)) :=
  if q ≠ rank then do
    Res.assert dbg (q ∈ nd)
    let l ← rd t (offsetOf nd q)
    wr t (offsetOf nd q) (l ++ [i])
  else .ok t

/-- One face of a local cell, L354-372. -/
def commFace (dbg : Bool) (rank : Nat) (g2d : List Nat) (m : Tess R) (icell : Nat) (t : List (List Nat)) (s : Int) : Res (List (List Nat)) := do
  let fc ← rd m.faceCells (posID s)
  Res.assert dbg (fc.length = 1 ∨ fc.length = 2)
  if fc.length = 2 then do
    let a ← rd fc 0
    let b ← rd fc 1
    Res.assert dbg (posID a = icell ∨ posID b = icell)
    let j := if posID a = icell then posID b else posID a
    Res.assert dbg (j < g2d.length)
    let q ← rd g2d j
    file dbg rank m.neighborDomains q (posID s) t
  else .ok t

/-- The faces shared with each neighbour, L349-373. -/
def commFaces (dbg : Bool) (rank nlocal : Nat) (g2d : List Nat) (m : Tess R) : Res (List (List Nat)) :=
  (List.range nlocal).foldlM (fun t icell => do
    let C ← rd m.cells icell
    C.foldlM (commFace dbg rank g2d m icell) t) (Serialize.resize m.sharedFaces m.neighborDomains.length [])

/-- The nodes of cells of each neighbour, L376-392. -/
def commNodes (dbg : Bool) (D rank : Nat) (g2d : List Nat) (m : Tess R) : Res (List (List Nat)) := do
  let nodeCells ← computeNodeCells dbg D m
  (List.range nodeCells.length).foldlM (fun t i => do
    let cells ← rd nodeCells i
    cells.foldlM (fun t c => do
      Res.assert dbg (c < g2d.length)
      let q ← rd g2d c
      file dbg rank m.neighborDomains q i t) t) (Serialize.resize m.sharedNodes m.neighborDomains.length [])

/-- L456-464 and L507-508: a list of nodes ordered by the quantised position. `key` is `constructPoint` without the index, which `operator<` ignores; its result
depends on the corner of the bounding box, which `computeBoundingBox` (L447) makes the same on all processes. `srt` is `std::sort`. -/
def sortNodes (D : Nat) (key : List R → κ) (srt : List (κ × Nat) → List (κ × Nat)) (m : Tess R) (l : List Nat) : Res (List Nat) := do
  let pts ← l.mapM fun i => do
    let c ← (List.range D).mapM fun k => rd m.nodes (D * i + k)
    return (key c, i)
  return (srt pts).map Prod.snd

/-- L511-520: a list of faces ordered by `fkey`, the quantised centroid. -/
def sortFaces (fkey : Tess R → Nat → Res κ) (srt : List (κ × Nat) → List (κ × Nat)) (m : Tess R) (l : List Nat) : Res (List Nat) := do
  let pts ← l.mapM fun i => do
    let k ← fkey m i
    return (k, i)
  return (srt pts).map Prod.snd

/-- `faceCentroid` in two dimensions (`/repo/src/DimensionTraits.hh` L47-63); `mid` is `(a >> 1) + (b >> 1)` in each coordinate. -/
def faceKey2 (dbg : Bool) (key : List R → κ) (mid : κ → κ → κ) (m : Tess R) (f : Nat) : Res κ := do
  Res.assert dbg (f < m.faces.length)
  let F ← rd m.faces f
  Res.assert dbg (F.length = 2)
  let n1 ← rd F 0
  let n2 ← rd F 1
  Res.assert dbg (n1 < m.nodes.length / 2)
  Res.assert dbg (n2 < m.nodes.length / 2)
  let c1 ← (List.range 2).mapM fun k => rd m.nodes (2 * n1 + k)
  let c2 ← (List.range 2).mapM fun k => rd m.nodes (2 * n2 + k)
  return mid (key c1) (key c2)

/-- `faceCentroid` in three dimensions (`/repo/src/DimensionTraits.hh` L112-136): `ni = mesh.faces[iface][*itr]`, although `*itr` is the node already. `add` sums
the coordinates, `fin` divides by the number of nodes and quantises. -/
def faceKey3 (dbg : Bool) (zero : R) (add : R → R → R) (fin : Nat → List R → κ) (m : Tess R) (f : Nat) : Res κ := do
  Res.assert dbg (f < m.faces.length)
  let F ← rd m.faces f
  Res.assert dbg (3 ≤ F.length)
  let s ← F.foldlM (fun s i => do
    let ni ← rd F i
    let c ← (List.range 3).mapM fun k => rd m.nodes (3 * ni + k)
    return List.zipWith add s c) [zero, zero, zero]
  return fin F.length s

/-- L341-522. The tables have one entry per neighbour, so the loops over `sharedNodes.size()` (L412) and over the neighbours (L453) are the same. -/
def buildComm (dbg : Bool) (D rank nlocal : Nat) (g2d : List Nat) (key : List R → κ) (fkey : Tess R → Nat → Res κ) (srt : List (κ × Nat) → List (κ × Nat))
    (m : Tess R) : Res (Tess R) := do
  Res.assert dbg m.neighborDomains.Nodup
  let sf ← commFaces dbg rank nlocal g2d m
  let sn ← commNodes dbg D rank g2d m
  let sn ← (sn.map fun l => uniq (l.mergeSort (· ≤ ·))).mapM (sortNodes D key srt m)
  let sf ← sf.mapM (sortFaces fkey srt m)
  return { m with sharedNodes := sn, sharedFaces := sf }

/-- L341-560 with `build` for `mBuildCommunicationInfo and numProcs > 1`. `fill` with a first iterator past the end (L542) is undefined. -/
def localMesh (dbg : Bool) (D rank nlocal : Nat) (g2d : List Nat) (build : Bool) (key : List R → κ) (fkey : Tess R → Nat → Res κ)
    (srt : List (κ × Nat) → List (κ × Nat)) (m : Tess R) : Res (Tess R) := do
  let m ← if build then buildComm dbg D rank nlocal g2d key fkey srt m else .ok m
  if m.cells.length < nlocal then .ub else do
  let m ← deleteCells dbg D m (List.replicate nlocal 1 ++ List.replicate (m.cells.length - nlocal) 0)
  dropEmpty m
end Verif.Exch
