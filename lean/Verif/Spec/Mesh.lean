import Verif.Model.Mesh
/-
What it means for a tessellation to be well formed, what the geometry of a cell is, and what it means for one mesh to be
the restriction of another to some of its cells. Nothing here refers to how the library computes anything.
-/
namespace Verif.Mesh
open Verif

/-- The nodes of face `f` (empty if there is no such face). -/
def face (m : Tess R) (f : Nat) : List Nat := m.faces.getD f []
/-- The signed faces of cell `c`. -/
def cell (m : Tess R) (c : Nat) : List Int := m.cells.getD c []
/-- The signed cells of face `f`. -/
def cellsOf (m : Tess R) (f : Nat) : List Int := m.faceCells.getD f []
/-- Number of nodes of a `D`-dimensional mesh. -/
def numNodes (D : Nat) (m : Tess R) : Nat := m.nodes.length / D

/-- A topologically consistent mesh in `D` dimensions (documentation of the members in `/repo/src/Tessellation.hh` L57-87): indices in range,
one or two cells per face, and `faceCells` is the exact inverse of `cells`, with orientation and multiplicity. -/
structure Consistent (D : Nat) (m : Tess R) : Prop where
  dim_pos : 0 < D
  nodes_dvd : D ∣ m.nodes.length
  faces_lt : ∀ F ∈ m.faces, ∀ n ∈ F, n < numNodes D m
  cells_lt : ∀ C ∈ m.cells, ∀ s ∈ C, posID s < m.faces.length
  faceCells_len : m.faceCells.length = m.faces.length
  faceCells_size : ∀ X ∈ m.faceCells, X.length = 1 ∨ X.length = 2
  faceCells_lt : ∀ X ∈ m.faceCells, ∀ s ∈ X, posID s < m.cells.length
  inverse : ∀ f, f < m.faces.length → ∀ c, c < m.cells.length →
    (cellsOf m f).count (c : Int) = (cell m c).count (f : Int) ∧
    (cellsOf m f).count (flip c) = (cell m c).count (flip f)

/-- Well-formed communication lists. -/
structure CommOK (D : Nat) (m : Tess R) : Prop where
  len : m.sharedFaces.length = m.sharedNodes.length
  nodes_lt : ∀ l ∈ m.sharedNodes, ∀ n ∈ l, n < numNodes D m
  faces_lt : ∀ l ∈ m.sharedFaces, ∀ f ∈ l, f < m.faces.length

/-- The geometry of one signed face of a cell: whether it is used forwards, and the coordinates of its nodes in order. -/
def faceGeom (D : Nat) (m : Tess R) (s : Int) : Bool × List (List R) :=
  (decide (0 ≤ s), (face m (posID s)).map (node D m))

/-- The geometry of a cell given as a list of signed faces: the faces' geometry in order. -/
def cellGeom (D : Nat) (m : Tess R) (C : List Int) : List (Bool × List (List R)) := C.map (faceGeom D m)

/-- A keep/delete mask for the cells: one entry per cell, each 0 (delete) or 1 (keep), at least one 1
(the contract at the top of `/repo/src/deleteCells.hh` L7-10 and L32-33). -/
structure GoodMask (m : Tess R) (mask : List Nat) : Prop where
  len : mask.length = m.cells.length
  bits : ∀ k ∈ mask, k = 0 ∨ k = 1
  some : m.cells.length = 0 ∨ 1 ∈ mask

/-- The cell ids a mask keeps, in increasing order. -/
def keptCells (mask : List Nat) : List Nat := (List.range mask.length).filter fun i => mask[i]? = some 1

/-- Translate an index through a list of old indices (`k[i]`). -/
def old (k : List Nat) (i : Nat) : Nat := k.getD i 0

/-- Translate a signed index, keeping its sign. -/
def oldS (k : List Nat) (s : Int) : Int := if 0 ≤ s then (old k (posID s) : Int) else flip (old k (posID s))

/-- `m'` is `m` restricted to the cells `kc`: the faces are `kf`, exactly those used by these cells, the nodes are `kn`, exactly those used by
these faces, all in increasing order of their old ids; and reading any table of `m'` with the new ids translated back to old ids gives the
corresponding entries of `m`. -/
structure Restricts (D : Nat) (m : Tess R) (kn kf kc : List Nat) (m' : Tess R) : Prop where
  kc_sorted : kc.Pairwise (· < ·)
  kf_sorted : kf.Pairwise (· < ·)
  kn_sorted : kn.Pairwise (· < ·)
  kc_lt : ∀ c ∈ kc, c < m.cells.length
  kf_iff : ∀ f, f ∈ kf ↔ ∃ c ∈ kc, ∃ s ∈ cell m c, posID s = f
  kn_iff : ∀ n, n ∈ kn ↔ ∃ f ∈ kf, n ∈ face m f
  nodes : m'.nodes = kn.flatMap (node D m)
  faces : m'.faces.map (·.map (old kn)) = kf.map (face m)
  faces_lt : ∀ F ∈ m'.faces, ∀ n ∈ F, n < kn.length
  cells : m'.cells.map (·.map (oldS kf)) = kc.map (cell m)
  cells_lt : ∀ C ∈ m'.cells, ∀ s ∈ C, posID s < kf.length
  faceCells : m'.faceCells.map (·.map (oldS kc)) = kf.map fun f => (cellsOf m f).filter fun s => decide (posID s ∈ kc)
  faceCells_lt : ∀ X ∈ m'.faceCells, ∀ s ∈ X, posID s < kc.length
  sharedNodes : m'.sharedNodes.map (·.map (old kn)) = m.sharedNodes.map (·.filter fun n => decide (n ∈ kn))
  sharedNodes_lt : ∀ l ∈ m'.sharedNodes, ∀ n ∈ l, n < kn.length
  sharedFaces : m'.sharedFaces.map (·.map (old kf)) = m.sharedFaces.map (·.filter fun n => decide (n ∈ kf))
  sharedFaces_lt : ∀ l ∈ m'.sharedFaces, ∀ n ∈ l, n < kf.length
  neighborDomains : m'.neighborDomains = m.neighborDomains

end Verif.Mesh

namespace Verif.Mesh
open Verif

/-- Face `f` belongs to one of the cells `kc`. -/
def FaceUsed (m : Tess R) (kc : List Nat) (f : Nat) : Prop := ∃ c ∈ kc, ∃ s ∈ cell m c, posID s = f

/-- Node `n` lies on a face of one of the cells `kc`. -/
def NodeUsed (m : Tess R) (kc : List Nat) (n : Nat) : Prop := ∃ c ∈ kc, ∃ s ∈ cell m c, n ∈ face m (posID s)

/-- The node coordinates of face `f`. -/
def faceCoords (D : Nat) (m : Tess R) (f : Nat) : List (List R) := (face m f).map (node D m)

/-- `boundaryFaces`/`boundaryNodes` list exactly the faces with one cell, and exactly the nodes of those faces. -/
structure BoundaryExact (m : Tess R) : Prop where
  faces : ∀ f, f ∈ m.boundaryFaces ↔ f < m.faces.length ∧ (cellsOf m f).length = 1
  nodes : ∀ n, n ∈ m.boundaryNodes ↔ ∃ f, f < m.faces.length ∧ (cellsOf m f).length = 1 ∧ n ∈ face m f

end Verif.Mesh
