import Verif.Model.CApi
/- What the C interface promises. -/
namespace Verif.CApi
open Verif Verif.Mesh

/-- `offs` and `data` are the compressed rows `rows`: row `i` is at the places from `offs[i]` up to, and without, `offs[i+1]`. -/
def CRS {α : Type} (offs : Arr Int) (data : Arr α) (rows : List (List α)) : Prop := ∀ (i : Nat) (r : List α), rows[i]? = some r →
  ∃ a : Nat, offs[i]? = some (some (a : Int)) ∧ offs[i + 1]? = some (some ((a + r.length : Nat) : Int)) ∧ ∀ (j : Nat) (x : α), r[j]? = some x → data[a + j]? = some (some x)

/-- The first entries of `a` are `l`. -/
def Holds {α : Type} (a : Arr α) (l : List α) : Prop := ∀ (j : Nat) (x : α), l[j]? = some x → a[j]? = some (some x)

/-- The C object describes the mesh, as polytope_tessellation.h says. -/
structure Describes {R : Type} (dim : Nat) (c : CTess R) (t : Tess R) : Prop where
  numNodes : dim * c.numNodes = t.nodes.length
  nodes : Holds c.nodes t.nodes
  numCells : c.numCells = t.cells.length
  cells : CRS c.cellOffsets c.cellFaces t.cells
  numFaces : c.numFaces = t.faces.length
  faces : CRS c.faceOffsets c.faceNodes t.faces
  numBoundaryNodes : c.numBoundaryNodes = t.boundaryNodes.length
  boundaryNodes : Holds c.boundaryNodes t.boundaryNodes
  numBoundaryFaces : c.numBoundaryFaces = t.boundaryFaces.length
  boundaryFaces : Holds c.boundaryFaces t.boundaryFaces
  /-- One cell and -1, or two cells. -/
  faceCells : ∀ (f : Nat) (l : List Int), t.faceCells[f]? = some l → (∀ x, l = [x] → c.faceCells[2 * f]? = some (some x) ∧ c.faceCells[2 * f + 1]? = some (some (-1))) ∧
    ∀ x y, l = [x, y] → c.faceCells[2 * f]? = some (some x) ∧ c.faceCells[2 * f + 1]? = some (some y)
  numNeighborDomains : c.numNeighborDomains = t.neighborDomains.length
  neighborDomains : Holds c.neighborDomains t.neighborDomains
  sharedNodes : CRS c.sharedNodeOffsets c.sharedNodes t.sharedNodes
  sharedFaces : CRS c.sharedFaceOffsets c.sharedFaces t.sharedFaces

/-- A mesh whose lists have the right lengths: whole nodes, one or two cells for every face, and one list of shared nodes and of shared faces for every neighbour. -/
structure Whole {R : Type} (dim : Nat) (t : Tess R) : Prop where
  nodes : dim ∣ t.nodes.length
  faceCells : t.faceCells.length = t.faces.length
  sizes : ∀ l ∈ t.faceCells, l.length = 1 ∨ l.length = 2
  sharedNodes : t.sharedNodes.length = t.neighborDomains.length
  sharedFaces : t.sharedFaces.length = t.neighborDomains.length

/-- Every time the object is cleared or freed, a mesh has been put into it since it was created or cleared last. -/
def Filled : Bool → List Use → Prop
  | full, [] => full = true
  | full, .clear :: us => full = true ∧ Filled false us
  | _, .tessellate _ :: us => Filled true us

/-- No mesh is put into an object that holds one. -/
def NoRefill : Bool → List Use → Prop
  | _, [] => True
  | _, .clear :: us => NoRefill false us
  | full, .tessellate _ :: us => full = false ∧ NoRefill true us

/-! The meaning of a sequence of calls on an empty PLC. -/

/-- The calls since the PLC was cleared last. -/
def current (es : List Edit) : List Edit := es.foldl (fun acc e => match e with | .clear => [] | e => acc ++ [e]) []

/-- The number of facets that have been added. -/
def numFacets (es : List Edit) : Nat := es.countP fun e => match e with | .addFacet => true | _ => false

/-- The nodes that have been added to facet `f`, in this order. -/
def nodesOf (es : List Edit) (f : Int) : List Int := es.filterMap fun e => match e with | .addFacetNode f' n => if f' = f then some n else none | _ => none

/-- The number of holes that have been added. -/
def numHoles (es : List Edit) : Nat := es.countP fun e => match e with | .addHole => true | _ => false

/-- The number of facets that have been added to hole `h`. -/
def numFacetsIn (es : List Edit) (h : Int) : Nat := es.countP fun e => match e with | .addHoleFacet h' => decide (h' = h) | _ => false

/-- The nodes that have been added to facet `f` of hole `h`, in this order. -/
def nodesIn (es : List Edit) (h f : Int) : List Int := es.filterMap fun e => match e with | .addHoleFacetNode h' f' n => if h' = h ∧ f' = f then some n else none | _ => none

/-- After the calls `es`, the call `e` refers to something that exists. -/
def Refers (es : List Edit) : Edit → Prop
  | .addFacetNode f _ => 0 ≤ f ∧ f < numFacets es
  | .addHoleFacet h => 0 ≤ h ∧ h < numHoles es
  | .addHoleFacetNode h f _ => (0 ≤ h ∧ h < numHoles es) ∧ 0 ≤ f ∧ f < numFacetsIn es h
  | _ => True

/-- What a call returns after the calls `es`: the number of what it adds. -/
def returned (es : List Edit) : Edit → Option Nat
  | .addFacet => some (numFacets es)
  | .addHole => some (numHoles es)
  | .addHoleFacet h => some (numFacetsIn es h)
  | _ => none

/-- The PLC that the calls describe. -/
structure Built (es : List Edit) (p : PLC) : Prop where
  facets : p.facets.length = numFacets es
  nodes : ∀ (f : Nat) (F : List Int), p.facets[f]? = some F → F = nodesOf es f
  holes : p.holes.length = numHoles es
  holeFacets : ∀ (h : Nat) (H : List (List Int)), p.holes[h]? = some H → H.length = numFacetsIn es h
  holeNodes : ∀ (h f : Nat) (H : List (List Int)) (F : List Int), p.holes[h]? = some H → H[f]? = some F → F = nodesIn es h f

/-- Every call refers to something that exists. -/
def Valid (es : List Edit) : Prop := ∀ pre e post, es = pre ++ e :: post → Refers (current pre) e
end Verif.CApi
