import Verif.Model.Mesh
/-
Model of what `SiloWriter<2, double>::write` and `SiloWriter<3, double>::write` (`/repo/src/SiloWriter_2d.cc`,
`/repo/src/SiloWriter_3d.cc`) put into a Silo file, with the helpers of `/repo/src/SiloUtils.cc` and `/repo/src/SiloUtils.hh`.

A Silo file is modelled as the record of the arguments of the `DBPut…` calls made on it; the Silo library itself (the HDF5 layout of these
objects) is not modelled. `int` is unbounded. The metadata of the option list (cycle, time) and the coordinate names are left out.
`&v[0]` of an empty vector is not counted as undefined, since the library is told that it has no elements.
-/
namespace Verif
namespace Silo
open Mesh

/-- What is given to `DBPutCompoundarray` (`SiloWriter_2d.cc` L326, L346, `SiloUtils.cc` L59): the element names, the element lengths and the values.
The name of the array itself is the name of the field in `Common`. -/
structure Compound where
  elemNames : List String
  elemLengths : List Int
  data : List Int
  deriving Repr, DecidableEq

/-- What is given to `DBPutUcdvar1` (`SiloUtils.hh` L30-39): the name and the values read through the pointer. -/
structure Var (R : Type) where
  name : String
  data : List R
  deriving Repr, DecidableEq

/-- The maps of fields and tags given to `write`, in key order (`std::map` iterates in key order). A field is a pointer to an array of values:
the model carries the array. -/
structure Extras (R : Type) where
  nodeFields : List (String × List R) := []
  edgeFields : List (String × List R) := []
  faceFields : List (String × List R) := []
  cellFields : List (String × List R) := []
  nodeTags : List (String × List Int) := []
  edgeTags : List (String × List Int) := []
  faceTags : List (String × List Int) := []
  cellTags : List (String × List Int) := []
  deriving Repr, DecidableEq

/-- The objects that both writers put: `conn`, `convexhull`, the four tag arrays and the four groups of fields. -/
structure Common (R : Type) where
  conn : Compound
  convexhull : Compound
  nodeTags : Option Compound
  edgeTags : Option Compound
  faceTags : Option Compound
  cellTags : Option Compound
  nodeVars : List (Var R)
  edgeVars : List (Var R)
  faceVars : List (Var R)
  cellVars : List (Var R)
  deriving Repr, DecidableEq

/-- A file of the 2D writer: the arguments of `DBPutUcdmesh` (`coords`, `numNodes`, `numCells`), `DBPutZonelist2` (`nodeList`) and `DBPutFacelist`
(`boundary`, the node pairs of the boundary faces). -/
structure File2 (R : Type) where
  coords : List (List R)
  numNodes : Nat
  numCells : Nat
  boundary : List Int
  nodeList : List Int
  common : Common R
  deriving Repr, DecidableEq

/-- A file of the 3D writer: the arguments of `DBPutUcdmesh` and `DBPutPHZonelist`. -/
structure File3 (R : Type) where
  coords : List (List R)
  numNodes : Nat
  numCells : Nat
  faceNodeCounts : List Int
  allFaceNodes : List Int
  boundaryFaceFlags : List Bool
  cellFaceCounts : List Int
  allCellFaces : List Int
  common : Common R
  deriving Repr, DecidableEq

/-! ### `SiloUtils` -/

/-- `writeTagsToFile`, `SiloUtils.cc` L22-66. L40 declares `string tagName` and L41 writes it without ever giving it a value: every element name
is the empty string. -/
def tagArray (tags : List (String × List Int)) : Option Compound :=
  if tags = [] then none
  else some
    { elemNames := tags.map fun _ => ""
      elemLengths := tags.map fun t => (t.2.length : Int)
      data := tags.flatMap fun t => t.2 }

/-- The read of `n` values through the pointer to a field by `DBPutUcdvar1`, `SiloUtils.hh` L30-39: past the end of the array it is undefined. -/
def readN {α : Type} (n : Nat) (l : List α) : Res (List α) := if n ≤ l.length then .ok (l.take n) else .ub

/-- `writeFieldsToFile`, `SiloUtils.hh` L19-41. -/
def vars {R : Type} (n : Nat) (fields : List (String × List R)) : Res (List (Var R)) :=
  fields.mapM fun f => do
    let d ← readN n f.2
    pure { name := f.1, data := d }

/-! ### The common part -/

/-- L304-327 of `SiloWriter_2d.cc` (`rev := false`) and L339-364 of `SiloWriter_3d.cc` (`rev := true`: the complement is removed from the faces of the
cells). Both push `faceCells[f][0]` twice (L317-318, L354-355). -/
def connArray {R : Type} (rev : Bool) (m : Tess R) : Res Compound := do
  let fc ← m.faceCells.mapM fun c => rd c 0
  let conn : List Int := m.cells.map (fun c => (c.length : Int)) ++ m.cells.flatMap (fun c => c.map fun j => if rev then (posID j : Int) else j)
    ++ fc.flatMap fun c => [c, c]
  let l0 : Int := m.cells.length
  let l2 : Int := conn.length - 2 * m.faces.length
  let l1 : Int := conn.length - l2 - l0
  pure { elemNames := ["ncellfaces", "cellfaces", "facecells"], elemLengths := [l0, l1, l2], data := conn }

/-- L332-347 of `SiloWriter_2d.cc`, L369-384 of `SiloWriter_3d.cc`. -/
def hullArray {R : Type} (m : Tess R) : Compound :=
  let fs := m.convexHull.facets
  let hull : List Int := ((fs.length : Int) :: fs.map fun f => (f.length : Int)) ++ fs.flatMap fun f => f
  { elemNames := ["nfacets", "nfacetnodes", "facetnodes"]
    elemLengths := [1, fs.length, hull.length - 1 - fs.length]
    data := hull }

/-- L304-364 of `SiloWriter_2d.cc` and L339-400 of `SiloWriter_3d.cc`: the part the two writers share. The edge fields are read with the number of
faces (the FIXME at L359 and L396). -/
def common {R : Type} (rev : Bool) (m : Tess R) (numNodes : Nat) (x : Extras R) : Res (Common R) := do
  let conn ← connArray rev m
  let nv ← vars numNodes x.nodeFields
  let ev ← vars m.faces.length x.edgeFields
  let fv ← vars m.faces.length x.faceFields
  let cv ← vars m.cells.length x.cellFields
  pure
    { conn := conn, convexhull := hullArray m
      nodeTags := tagArray x.nodeTags, edgeTags := tagArray x.edgeTags, faceTags := tagArray x.faceTags, cellTags := tagArray x.cellTags
      nodeVars := nv, edgeVars := ev, faceVars := fv, cellVars := cv }

/-- The coordinate arrays, L245-255 of `SiloWriter_2d.cc` and L271-283 of `SiloWriter_3d.cc`: `x[i] = mesh.nodes[dim*i + d]`. -/
def coordArrays {R : Type} (dim : Nat) (m : Tess R) : Res (List (List R)) :=
  (List.range dim).mapM fun d => (List.range (m.nodes.length / dim)).mapM fun i => rd m.nodes (dim * i + d)

/-! ### 2D -/

/-- One pass of the loop of `traverseNodes`, `SiloWriter_2d.cc` L48-53. -/
def firstNode (faces : List (List Nat)) (k : Int) : Res Nat := do
  let f ← rd faces (posID k)
  rd f (if 0 ≤ k then 0 else 1)

/-- `traverseNodes`, `SiloWriter_2d.cc` L41-64. `nodes.front()` on an empty vector (L54) is undefined. `nn` is `mesh.nodes.size()/2`. -/
def traverseNodes (dbg : Bool) (nn : Nat) (faces : List (List Nat)) (c : List Int) : Res (List Int) := do
  let ns ← c.mapM (firstNode faces)
  let n0 ← rd ns 0
  let ns := ns ++ [n0]
  Res.assert dbg (∀ n ∈ ns, n < nn)
  pure (ns.map Int.ofNat)

/-- L257-264 of `SiloWriter_2d.cc`: the node pair of a boundary face. -/
def boundaryPair (faces : List (List Nat)) (b : Nat) : Res (List Int) := do
  let f ← rd faces b
  let a ← rd f 0
  let c ← rd f 1
  pure [(a : Int), (c : Int)]

/-- `SiloWriter<2, RealType>::write`, `SiloWriter_2d.cc` L237-364: what one process writes into its directory of the file. -/
def write2 {R : Type} (dbg : Bool) (m : Tess R) (x : Extras R) : Res (File2 R) := do
  let numNodes := m.nodes.length / 2
  let coords ← coordArrays 2 m
  let bd ← m.boundaryFaces.mapM (boundaryPair m.faces)
  let rings ← m.cells.mapM (traverseNodes dbg numNodes m.faces)
  let com ← common false m numNodes x
  pure
    { coords := coords, numNodes := numNodes, numCells := m.cells.length
      boundary := bd.flatten
      nodeList := rings.flatMap fun r => (r.length : Int) :: r
      common := com }

/-! ### 3D -/

/-- L297-305 of `SiloWriter_3d.cc`: the flags of the boundary faces. -/
def flagFaces (dbg : Bool) (nf : Nat) : List Nat → List Bool → Res (List Bool)
  | [], fl => .ok fl
  | b :: bs, fl => do
    Res.assert dbg (b < nf)
    let fl ← wr fl b true
    flagFaces dbg nf bs fl

/-- `SiloWriter<3, RealType>::write`, `SiloWriter_3d.cc` L263-400. The two assertions that `push_back` in a loop made as many entries as the loop had
passes (L295, L320) are left out. -/
def write3 {R : Type} (dbg : Bool) (m : Tess R) (x : Extras R) : Res (File3 R) := do
  let numNodes := m.nodes.length / 3
  let coords ← coordArrays 3 m
  let flags ← flagFaces dbg m.faces.length m.boundaryFaces (List.replicate m.faces.length false)
  let com ← common true m numNodes x
  pure
    { coords := coords, numNodes := numNodes, numCells := m.cells.length
      faceNodeCounts := m.faces.map fun f => (f.length : Int)
      allFaceNodes := m.faces.flatMap fun f => f.map Int.ofNat
      boundaryFaceFlags := flags
      cellFaceCounts := m.cells.map fun c => (c.length : Int)
      allCellFaces := m.cells.flatMap fun c => c
      common := com }

end Silo
end Verif
