import Verif.Model.Mesh
/-
Model of `/repo/src/MeshEditor.cc` (serial paths): `deleteCells`, `cleanMesh`, `computeFaceAndNodeMasks`.
The masks `mCellMask` (0/1), `mFaceMask`, `mNodeMask` (Bool) and the renumbering arrays are explicit arguments instead of members.
-/
namespace Verif.Editor
open Verif Verif.Mesh

/-- `MeshEditor.cc` L600-607: `map[i] = n1; if (mask[i] == 1) n1++`, starting at `k`: the number of kept entries before `i`. -/
def rankMap : List Bool → Nat → List Nat
  | [], _ => []
  | b :: bs, k => k :: rankMap bs (if b then k + 1 else k)

/-- `MeshEditor.cc` L608-610: `if (mCellMask[i] == 1) cellMap[i] = ncells1++` on an array of zeros. -/
def cellMapOf : List Nat → Nat → List Nat
  | [], _ => []
  | c :: cs, k => if c = 1 then k :: cellMapOf cs (k + 1) else 0 :: cellMapOf cs k

/-- `MeshEditor.cc` L677-683: renumber the nodes of a face through `nodeMap`. -/
def mapFace (nodeMap : List Nat) : List Nat → Res (List Nat)
  | [] => .ok []
  | n :: ns => do
    let v ← rd nodeMap n
    let r ← mapFace nodeMap ns
    return v :: r

/-- `MeshEditor.cc` L687-690 (and L692-695): one entry of the new `faceCells`. -/
def mapFaceCell (cellMask cellMap : List Nat) (c : Int) : Res (List Int) := do
  let k ← rd cellMask (posID c)
  if k = 1 then do
    let v ← rd cellMap (posID c)
    return [if c < 0 then flip v else (v : Int)]
  else
    return []

/-- `MeshEditor.cc` L684-698: the new `faceCells` of a kept face. -/
def mapFaceCells (dbg : Bool) (cellMask cellMap : List Nat) (fc : List Int) : Res (List Int) := do
  Res.assert dbg (fc.length = 1 ∨ fc.length = 2)
  let c0 ← rd fc 0
  let r0 ← mapFaceCell cellMask cellMap c0
  let r1 ← if fc.length = 2 then do
      let c1 ← rd fc 1
      mapFaceCell cellMask cellMap c1
    else .ok []
  Res.assert dbg ((r0 ++ r1).length = 1 ∨ (r0 ++ r1).length = 2)
  return r0 ++ r1

/-- `MeshEditor.cc` L670-702: the kept faces and their `faceCells`, from face `i` on. -/
def cleanFaces (dbg : Bool) (m : Tess R) (cellMask cellMap nodeMap : List Nat) :
    Nat → List Bool → Res (List (List Nat) × List (List Int))
  | _, [] => .ok ([], [])
  | i, b :: bs =>
    if b then do
      let ns ← rd m.faces i
      let F ← mapFace nodeMap ns
      let fc ← rd m.faceCells i
      let C ← mapFaceCells dbg cellMask cellMap fc
      let r ← cleanFaces dbg m cellMask cellMap nodeMap (i + 1) bs
      return (F :: r.1, C :: r.2)
    else cleanFaces dbg m cellMask cellMap nodeMap (i + 1) bs

/-- `MeshEditor.cc` L710-719: the faces of the kept cell with old index `i` are appended to `newCells[i]`. -/
def pushFaces (fm : List Bool) (faceMap : List Nat) (i : Nat) : List Int → List (List Int) → Res (List (List Int))
  | [], nc => .ok nc
  | s :: ss, nc => do
    let b ← rd fm (posID s)
    if b then do
      let v ← rd faceMap (posID s)
      let c ← rd nc i
      let nc ← wr nc i (c ++ [if s < 0 then flip v else (v : Int)])
      pushFaces fm faceMap i ss nc
    else pushFaces fm faceMap i ss nc

/-- `MeshEditor.cc` L708-721: the loop over the old cells, from cell `i` on. `nc` is `newCells`. -/
def cleanCells (cellMask : List Nat) (fm : List Bool) (faceMap : List Nat) :
    Nat → List (List Int) → List (List Int) → Res (List (List Int))
  | _, [], nc => .ok nc
  | i, c :: cs, nc => do
    let k ← rd cellMask i
    let nc ← if k = 1 then pushFaces fm faceMap i c nc else .ok nc
    cleanCells cellMask fm faceMap (i + 1) cs nc

/-- `MeshEditor.cc` L729-733 (and L734-738): filter and renumber one shared list. -/
def mapShared (mask : List Bool) (map : List Nat) : List Nat → Res (List Nat)
  | [] => .ok []
  | n :: ns => do
    let b ← rd mask n
    if b then do
      let v ← rd map n
      let r ← mapShared mask map ns
      return v :: r
    else mapShared mask map ns

/-- The loop `MeshEditor.cc` L727-741 over the neighbour domains, for one of the two tables. -/
def mapSharedAll (mask : List Bool) (map : List Nat) : List (List Nat) → Res (List (List Nat))
  | [] => .ok []
  | l :: ls => do
    let r ← mapShared mask map l
    let rs ← mapSharedAll mask map ls
    return r :: rs

/-- `MeshEditor::cleanMesh(cellMap, faceMap, nodeMap)` (`MeshEditor.cc` L622-755). Same simplifications about the shared tables as
`Mesh.deleteCells`. Clearing the masks at the end is implicit (they are arguments). -/
def cleanMesh (dbg : Bool) (D : Nat) (m : Tess R) (cellMask : List Nat) (fm nm : List Bool) (cellMap faceMap nodeMap : List Nat) :
    Res (Tess R) := do
  Res.assert dbg (cellMask ≠ [] ∧ fm ≠ [] ∧ nm ≠ [])
  let ncells1 := cellMask.sum
  let nodes := keepNodes D m 0 nm
  let (faces, faceCells) ← cleanFaces dbg m cellMask cellMap nodeMap 0 fm
  let cells ← cleanCells cellMask fm faceMap 0 m.cells (List.replicate ncells1 [])
  Res.assert dbg (m.sharedFaces.length = m.sharedNodes.length)
  if m.sharedFaces.length < m.sharedNodes.length then .ub else do
  let sharedNodes ← mapSharedAll nm nodeMap m.sharedNodes
  let sharedFaces ← mapSharedAll fm faceMap m.sharedFaces
  Res.assert dbg (nodes.length = D * nm.countP id)
  Res.assert dbg (faces.length = fm.countP id)
  Res.assert dbg (faceCells.length = fm.countP id)
  Res.assert dbg (cells.length = ncells1)
  return { m with
    nodes := nodes
    cells := cells
    faces := faces
    faceCells := faceCells
    sharedNodes := sharedNodes
    sharedFaces := sharedFaces
    convexHull := {} }

/-- `MeshEditor::cleanMesh()` (`MeshEditor.cc` L584-618). Its assertions L613-615 compare a sum of a 0/1 mask with a count of its ones
and always hold for such masks; they are left out. -/
def cleanMeshMasks (dbg : Bool) (D : Nat) (m : Tess R) (cellMask : List Nat) (fm nm : List Bool) : Res (Tess R) := do
  Res.assert dbg (cellMask ≠ [] ∧ fm ≠ [] ∧ nm ≠ [])
  cleanMesh dbg D m cellMask fm nm (cellMapOf cellMask 0) (rankMap fm 0) (rankMap nm 0)

/-- `MeshEditor.cc` L38-44: set the mask to 0 at every given id. -/
def maskOut (dbg : Bool) : List Nat → List Nat → Res (List Nat)
  | [], mask => .ok mask
  | c :: cs, mask => do
    Res.assert dbg (c < mask.length)
    let mask ← wr mask c 0
    maskOut dbg cs mask

/-- `MeshEditor::computeFaceAndNodeMasks` (`MeshEditor.cc` L787-821), called through `computeMasks` (L760-783, cell masks given): returns
(node mask, face mask). The marking loops are the ones of `deleteCells.hh` and share their model. -/
def computeFaceAndNodeMasks (dbg : Bool) (D : Nat) (m : Tess R) (cellMask : List Nat) : Res (List Bool × List Bool) := do
  Res.assert dbg (cellMask ≠ [])
  Res.assert dbg (cellMask.length = m.cells.length)
  Res.assert dbg (m.cells.length = 0 ∨ cellMask.max? = some 1)
  let s ← markCells dbg (m.nodes.length / D) m.faces cellMask 0 m.cells
    (List.replicate (m.nodes.length / D) false, List.replicate m.faces.length false)
  Res.assert dbg (s.2 ≠ [] ∧ s.1 ≠ [])
  return s

/-- `MeshEditor::deleteCells(cellsToDelete)` (`MeshEditor.cc` L30-49). Not modelled: a release build with no cell in the mesh and an empty
list of ids, which never gets to the marking loop. -/
def deleteCells (dbg : Bool) (D : Nat) (m : Tess R) (ids : List Nat) : Res (Tess R) := do
  Res.assert dbg (ids ≠ [])
  let cellMask ← maskOut dbg ids (List.replicate m.cells.length 1)
  let s ← computeFaceAndNodeMasks dbg D m cellMask
  cleanMeshMasks dbg D m cellMask s.2 s.1

end Verif.Editor
