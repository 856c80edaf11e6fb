import Verif.Model.Silo
/-
Specification of a Silo file, written from the reader's side: how the flat arrays of the file are cut into nodes, faces and cells, and what it means
that a file describes a mesh.
-/
namespace Verif
namespace Silo
open Mesh

/-- A flat array cut into pieces of given lengths. -/
def cut {α : Type} : List Nat → List α → List (List α)
  | [], _ => []
  | n :: ns, l => l.take n :: cut ns (l.drop n)

/-- The zones of a polygonal zone list: `n` times a count followed by that many nodes. -/
def zones : Nat → List Int → List (List Int)
  | 0, _ => []
  | _ + 1, [] => []
  | n + 1, k :: l => l.take k.toNat :: zones n (l.drop k.toNat)

/-- The nodes of the face `k` of a cell in the direction in which the cell uses the face: as stored if `k` is not negative, the other way round if it is. -/
def ends (faces : List (List Nat)) (k : Int) : List Nat :=
  if 0 ≤ k then faces.getD (posID k) [] else (faces.getD (posID k) []).reverse

/-- The values that element `e` of a compound array has for a reader: the elements follow one another with the lengths given. -/
def Compound.elem (c : Compound) (e : Nat) : List Int := (cut (c.elemLengths.map Int.toNat) c.data).getD e []

/-- A 2D mesh as the documentation of `Tessellation` describes it: faces are pairs of nodes, the faces of each cell follow one another around it, and each
face has its cells. -/
structure Polygonal {R : Type} (m : Tess R) : Prop where
  even : 2 ∣ m.nodes.length
  face : ∀ f ∈ m.faces, f.length = 2 ∧ ∀ n ∈ f, n < m.nodes.length / 2
  boundary : ∀ b ∈ m.boundaryFaces, b < m.faces.length
  nonempty : ∀ c ∈ m.cells, c ≠ []
  range : ∀ c ∈ m.cells, ∀ k ∈ c, posID k < m.faces.length
  loop : ∀ c ∈ m.cells, ∀ (j : Nat) (k k' : Int), c[j]? = some k → c[(j + 1) % c.length]? = some k' → (ends m.faces k)[1]? = (ends m.faces k')[0]?
  sides : m.faceCells.length = m.faces.length
  side : ∀ s ∈ m.faceCells, s ≠ []

/-- What the 3D writer needs of a mesh. -/
structure Polyhedral {R : Type} (m : Tess R) : Prop where
  triple : 3 ∣ m.nodes.length
  boundary : ∀ b ∈ m.boundaryFaces, b < m.faces.length
  sides : m.faceCells.length = m.faces.length
  side : ∀ s ∈ m.faceCells, s ≠ []

/-- Every field has as many values as the mesh has elements of its kind (`e` edges). -/
structure Fit {R : Type} (dim e : Nat) (m : Tess R) (x : Extras R) : Prop where
  node : ∀ f ∈ x.nodeFields, f.2.length = m.nodes.length / dim
  edge : ∀ f ∈ x.edgeFields, f.2.length = e
  face : ∀ f ∈ x.faceFields, f.2.length = m.faces.length
  cell : ∀ f ∈ x.cellFields, f.2.length = m.cells.length

/-- The coordinate arrays hold the nodes. -/
def HasNodes {R : Type} (dim : Nat) (m : Tess R) (coords : List (List R)) : Prop :=
  coords.length = dim ∧ (∀ a ∈ coords, a.length = m.nodes.length / dim) ∧
    ∀ (d i : Nat), d < dim → i < m.nodes.length / dim → (coords[d]?.bind fun a => a[i]?) = m.nodes[dim * i + d]?

/-- The fields of one kind stand in the file with their names and all their values. -/
def HasFields {R : Type} (fields : List (String × List R)) (vs : List (Var R)) : Prop := vs.map (fun v => (v.name, v.data)) = fields

/-- The facets of the convex hull can be read from the file: the three blocks make up the array, and hold the number of facets, their sizes and their nodes. -/
def HasHull (facets : List (List Int)) (c : Compound) : Prop :=
  c.elemLengths.length = 3 ∧ c.elemLengths.sum = c.data.length ∧ c.elem 0 = [(facets.length : Int)] ∧ c.elem 1 = facets.map (fun f => (f.length : Int)) ∧ cut ((c.elem 1).map Int.toNat) (c.elem 2) = facets

/-- The 2D file describes the mesh: the coordinates are those of the nodes, zone `i` is the closed ring of nodes of cell `i` (entries `j` and `j + 1` of the
ring are the ends of face `j` of the cell, in the direction in which the cell uses it), the boundary faces are listed by their nodes, the signed faces of the
cells can be cut out of `conn`, and hull and fields are there. -/
structure Describes2 {R : Type} (m : Tess R) (x : Extras R) (f : File2 R) : Prop where
  numNodes : f.numNodes = m.nodes.length / 2
  numCells : f.numCells = m.cells.length
  nodes : HasNodes 2 m f.coords
  rings : (zones f.numCells f.nodeList).length = m.cells.length
  ring : ∀ (i : Nat) c, m.cells[i]? = some c → ∃ r, (zones f.numCells f.nodeList)[i]? = some r ∧ r.length = c.length + 1 ∧
    ∀ (j : Nat) k, c[j]? = some k → ∃ a b, ends m.faces k = [a, b] ∧ r[j]? = some (a : Int) ∧ r[j + 1]? = some (b : Int)
  boundary : f.boundary.length = 2 * m.boundaryFaces.length ∧
    cut (m.boundaryFaces.map fun _ => 2) f.boundary = m.boundaryFaces.map fun b => (m.faces.getD b []).map Int.ofNat
  cells : cut ((f.common.conn.data.take f.numCells).map Int.toNat) (f.common.conn.data.drop f.numCells) = m.cells
  hull : HasHull m.convexHull.facets f.common.convexhull
  nodeFields : HasFields x.nodeFields f.common.nodeVars
  edgeFields : HasFields x.edgeFields f.common.edgeVars
  faceFields : HasFields x.faceFields f.common.faceVars
  cellFields : HasFields x.cellFields f.common.cellVars

/-- The 3D file describes the mesh: the coordinates are those of the nodes, faces and signed cell faces can be cut out of the polyhedral zone list, exactly
the boundary faces are flagged, and hull and node, face and cell fields are there. -/
structure Describes3 {R : Type} (m : Tess R) (x : Extras R) (f : File3 R) : Prop where
  numNodes : f.numNodes = m.nodes.length / 3
  numCells : f.numCells = m.cells.length
  nodes : HasNodes 3 m f.coords
  faces : cut (f.faceNodeCounts.map Int.toNat) (f.allFaceNodes.map Int.toNat) = m.faces
  faceNodes : ∀ n ∈ f.allFaceNodes, 0 ≤ n
  cells : cut (f.cellFaceCounts.map Int.toNat) f.allCellFaces = m.cells
  flagged : f.boundaryFaceFlags.length = m.faces.length
  flag : ∀ i : Nat, f.boundaryFaceFlags[i]? = some true ↔ i ∈ m.boundaryFaces
  hull : HasHull m.convexHull.facets f.common.convexhull
  nodeFields : HasFields x.nodeFields f.common.nodeVars
  faceFields : HasFields x.faceFields f.common.faceVars
  cellFields : HasFields x.cellFields f.common.cellVars

/-- The `conn` array names its three parts correctly: the numbers of faces of the cells, the faces of the cells, the two cells of each face. -/
structure ConnRight {R : Type} (m : Tess R) (c : Compound) : Prop where
  counts : c.elem 0 = m.cells.map fun c => (c.length : Int)
  faces : (c.elem 1).map posID = (m.cells.flatMap fun c => c).map posID
  sides : c.elem 2 = m.faceCells.flatMap fun s => s

end Silo
end Verif
