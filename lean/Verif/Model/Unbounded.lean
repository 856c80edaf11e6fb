import Verif.Model.QuantTess
import Verif.Model.Query
/-
Model of `constructUnboundedMeshTopology` and `intersectBoundingBox`, `/repo/src/polytope_tessellator_utilities.hh` L28-125 and
L225-285. Indices are unbounded.
-/
namespace Verif.Unbounded
open Verif Verif.Internal Verif.Geom

/-! ### `constructUnboundedMeshTopology` -/

/-- What the function writes: `mesh.faces` (pairs), `mesh.cells`, `mesh.faceCells`, and its local `face2id` and `faceCounter`. The
cells before the current one, and the current one. `mesh.cells` is resized to its final size at the start (L57); here a cell is
appended when it is complete, which gives the same vector. -/
structure St where
  face2id : KMap (Int × Int) := []
  counter : Nat → Nat := fun _ => 0
  faces : List (Int × Int) := []
  faceCells : List (List Int) := []
  cells : List (List Int) := []

variable {K : Type} [Field K] [LinearOrder K]

/-- `v.resize(n)`. -/
def resize (v : List (List Int)) (n : Nat) : List (List Int) := if n ≤ v.length then v.take n else v ++ List.replicate (n - v.length) []

/-- One side of a ring: the body of the loop L70-97 for cell `i`. `side a b i` is the value of `orient2d` for the nodes `a` and `b`
and generator `i`. A node outside `mesh.nodes` is undefined behaviour. -/
def addSide (dbg : Bool) (nnodes : Nat) (side : Int → Int → Nat → K) (i : Nat) (p : Nat × Nat) (s : St × List Int) : Res (St × List Int) := do
  Res.assert dbg (p.1 ≠ p.2)
  let face ← hashEdge dbg p.1 p.2
  let r := addKey face s.1.face2id
  let counter := fun k => if k = r.1 then s.1.counter k + 1 else s.1.counter k
  Res.assert dbg (counter r.1 > 0)
  let faces := if counter r.1 = 1 then s.1.faces ++ [face] else s.1.faces
  let faceCells := if counter r.1 = 1 then resize s.1.faceCells (r.1 + 1) else s.1.faceCells
  if nnodes ≤ p.1 ∨ nnodes ≤ p.2 then Res.ub
  else if side face.1 face.2 i > 0 then do
    let fc ← QuantTess.pushAt faceCells r.1 (i : Int)
    return ({ s.1 with face2id := r.2, counter := counter, faces := faces, faceCells := fc }, s.2 ++ [(r.1 : Int)])
  else do
    let fc ← QuantTess.pushAt faceCells r.1 (-(i : Int) - 1)
    return ({ s.1 with face2id := r.2, counter := counter, faces := faces, faceCells := fc }, s.2 ++ [-(r.1 : Int) - 1])

/-- The loop L70-97 over the sides of one ring. -/
def addSides (dbg : Bool) (nnodes : Nat) (side : Int → Int → Nat → K) (i : Nat) : List (Nat × Nat) → St × List Int → Res (St × List Int)
  | [], s => .ok s
  | p :: ps, s => do
    let s ← addSide dbg nnodes side i p s
    addSides dbg nnodes side i ps s

/-- The pairs `(i1, i2)` of L71-72. -/
def sides (c : List Nat) : List (Nat × Nat) := (List.range c.length).map fun j => (c.getD j 0, c.getD ((j + 1) % c.length) 0)

/-- L62-67: the ring of cell `i`, reversed if its first two nodes are clockwise. -/
def turned (dbg : Bool) (nnodes : Nat) (side : Int → Int → Nat → K) (i : Nat) (c : List Nat) : Res (List Nat) := do
  Res.assert dbg (c.length > 2)
  let a ← rd c 0
  let b ← rd c 1
  if nnodes ≤ a ∨ nnodes ≤ b then Res.ub
  else if side a b i < 0 then return c.reverse
  else return c

/-- The loop L58-98 over the cells. -/
def addCells (dbg : Bool) (nnodes : Nat) (side : Int → Int → Nat → K) : Nat → List (List Nat) → St → Res St
  | _, [], s => .ok s
  | i, c :: cs, s => do
    let c ← turned dbg nnodes side i c
    let r ← addSides dbg nnodes side i (sides c) (s, [])
    addCells dbg nnodes side (i + 1) cs { r.1 with cells := r.1.cells ++ [r.2] }

/-- `mesh.infFaces` (L101-103). -/
def infFaces (s : St) : List Nat := (List.range s.faces.length).filter fun k => decide (s.counter k = 1)

/-- What the function leaves in the mesh. -/
structure Out where
  faces : List (Int × Int)
  cells : List (List Int)
  faceCells : List (List Int)
  infFaces : List Nat
  deriving DecidableEq, Repr

/-- The post-conditions on the faces in `infFaces` (L108-118). -/
def checkInf (dbg : Bool) (faces : List (Int × Int)) (infNodes : List Nat) : List Nat → Res Unit
  | [] => .ok ()
  | k :: ks => do
    Res.assert dbg (k < faces.length)
    let f ← rd faces k
    Res.assert dbg (∃ n ∈ infNodes, (n : Int) = f.1)
    Res.assert dbg (∃ n ∈ infNodes, (n : Int) = f.2)
    checkInf dbg faces infNodes ks

/-- `constructUnboundedMeshTopology` (L38-125) on a mesh that has `nnodes` nodes, the `infNodes`, and nothing else. `cellNodes` are
the rings. The post-conditions are only evaluated with assertions. -/
def construct (dbg : Bool) (nnodes : Nat) (infNodes : List Nat) (side : Int → Int → Nat → K) (cellNodes : List (List Nat)) : Res Out := do
  Res.assert dbg (nnodes ≠ 0)
  Res.assert dbg (infNodes ≠ [])
  let s ← addCells dbg nnodes side 0 cellNodes {}
  if dbg then do
    checkInf dbg s.faces infNodes (infFaces s)
    Res.assert dbg (s.faceCells.length = s.faces.length)
    Res.assert dbg ((infFaces s).length ≤ s.faces.length)
    Res.assert dbg (infNodes.length ≤ nnodes)
    return ⟨s.faces, s.cells, s.faceCells, infFaces s⟩
  else return ⟨s.faces, s.cells, s.faceCells, infFaces s⟩

/-! ### `intersectBoundingBox` -/

/-- The loop L253-282 of `intersectBoundingBox`, from facet `k` on: `(facetIntersections, result)`. `numIntersections` is the number
of facets found. The tolerance of `segmentIntersection2D` is its default, `t`. -/
def boxLoop (dbg : Bool) (n : Nat) (verts : List K) (p1 p2 : V2 K) (t tol : K) : Nat → List (List Int) → List Nat × List K → Res (List Nat × List K)
  | _, [], acc => .ok acc
  | k, f :: fs, acc => do
    Res.assert dbg (f.length = 2)
    let i ← rd f 0
    let j ← rd f 1
    Res.assert dbg (0 ≤ i ∧ i < n)
    Res.assert dbg (0 ≤ j ∧ j < n)
    if i < 0 ∨ j < 0 then Res.ub
    else do
      let ax ← rd verts (2 * i.toNat)
      let ay ← rd verts (2 * i.toNat + 1)
      let bx ← rd verts (2 * j.toNat)
      let by' ← rd verts (2 * j.toNat + 1)
      match segIntersect p1 p2 ⟨ax, ay⟩ ⟨bx, by'⟩ t with
      | none => boxLoop dbg n verts p1 p2 t tol (k + 1) fs acc
      | some q => do
        let v ← rd verts (2 * k + (k + 1) % 2)
        let p : V2 K := if k % 2 = 0 then ⟨q.x, v⟩ else ⟨v, q.y⟩
        let add := match acc.2.getLast? with
          | none => true
          | some b => decide (|p.x - (b - 1)| > tol ∧ |p.y - b| > tol)
        if add then boxLoop dbg n verts p1 p2 t tol (k + 1) fs (acc.1 ++ [k], acc.2 ++ [p.x, p.y])
        else boxLoop dbg n verts p1 p2 t tol (k + 1) fs acc

/-- `intersectBoundingBox` (L241-285), called with empty vectors: `(facetIntersections, result)`; it returns the length of the first. -/
def intersectBoundingBox (dbg : Bool) (p1 p2 : V2 K) (n : Nat) (verts : List K) (facets : List (List Int)) (t tol : K) : Res (List Nat × List K) := do
  let r ← boxLoop dbg n verts p1 p2 t tol 0 facets ([], [])
  Res.assert dbg (r.1.length = r.2.length / 2)
  return r

end Verif.Unbounded
