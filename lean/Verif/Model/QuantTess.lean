import Mathlib.Data.List.Sort
import Mathlib.Algebra.Order.Field.Basic
import Verif.Model.Internal
/-
Model of `internal::QuantTessellation` (`/repo/src/QuantTessellation.hh`), the intermediate mesh that a tessellator in three
dimensions fills. Its points are hashed positions: any type `P` with equality here. Ints are unbounded.
Not modelled: `hashPosition` and `unhashPosition` of this class call `geometry::Hasher`, which is in `Model/Hash`;
`tessellation` copies `infNodes` and `infFaces` to members that `Tessellation` does not have at this commit, so that it does not
compile when it is used; the rest of its body is modelled.
-/
namespace Verif.QuantTess
open Verif Verif.Internal

/-- The members that hold the mesh (L37-43), and the number of generators (L278). -/
structure QMesh (P : Type) where
  point2id : KMap P := []
  edge2id : KMap (Int × Int) := []
  face2id : KMap (List Nat) := []
  points : List P := []
  edges : List (Int × Int) := []
  faces : List (List Int) := []
  cells : List (List Int) := []
  generators : Nat := 0
  deriving DecidableEq, Repr

variable {P : Type} [DecidableEq P]

/-- `addNewNode(const PointHash)` (L75-83). -/
def addNewNode (dbg : Bool) (ix : P) (q : QMesh P) : Res (Nat × QMesh P) := do
  let k := q.point2id.length
  let r := addKey ix q.point2id
  let points := if r.1 = k then q.points ++ [ix] else q.points
  Res.assert dbg (points.length = r.2.length)
  return (r.1, { q with point2id := r.2, points := points })

/-- `addNewEdge` (L90-98). -/
def addNewEdge (dbg : Bool) (x : Int × Int) (q : QMesh P) : Res (Nat × QMesh P) := do
  let k := q.edge2id.length
  let r := addKey x q.edge2id
  let edges := if r.1 = k then q.edges ++ [x] else q.edges
  Res.assert dbg (edges.length = r.2.length)
  return (r.1, { q with edge2id := r.2, edges := edges })

/-- `x < 0 ? ~x : x` (L106; `internal::positiveID`, `polytope_internal.hh` L140-143). -/
def positiveID (x : Int) : Nat := if x < 0 then (-x - 1).toNat else x.toNat

/-- `fhash` (L105-107): the positive ids of the edges, sorted with `std::sort`. -/
def faceHash (x : List Int) : List Nat := (x.map positiveID).insertionSort (· ≤ ·)

/-- `addNewFace` (L104-115). -/
def addNewFace (dbg : Bool) (x : List Int) (q : QMesh P) : Res (Nat × QMesh P) := do
  let fhash := faceHash x
  let k := q.face2id.length
  let r := addKey fhash q.face2id
  let faces := if r.1 = k then q.faces ++ [x] else q.faces
  Res.assert dbg (faces.length = r.2.length)
  return (r.1, { q with face2id := r.2, faces := faces })

/-- `result[i].push_back(x)`. -/
def pushAt {α : Type} (result : List (List α)) (i : Nat) (x : α) : Res (List (List α)) := do
  let l ← rd result i
  wr result i (l ++ [x])

/-- `int < size_t`: a negative number is converted to a large one. -/
def below (i : Int) (n : Nat) : Bool := decide (0 ≤ i ∧ i < n)

/-- The loop of `nodeEdges` (L175-180), from edge `iedge` on. A negative index is out of bounds. -/
def nodeEdgesLoop (dbg : Bool) (npoints : Nat) : Nat → List (Int × Int) → List (List Nat) → Res (List (List Nat))
  | _, [], result => .ok result
  | iedge, e :: es, result => do
    Res.assert dbg (below e.1 npoints = true)
    Res.assert dbg (below e.2 npoints = true)
    let result ← if e.1 < 0 then Res.ub else pushAt result e.1.toNat iedge
    let result ← if e.2 < 0 then Res.ub else pushAt result e.2.toNat iedge
    nodeEdgesLoop dbg npoints (iedge + 1) es result

/-- `nodeEdges` (L173-182). -/
def nodeEdges (dbg : Bool) (q : QMesh P) : Res (List (List Nat)) :=
  nodeEdgesLoop dbg q.points.length 0 q.edges (List.replicate q.points.length [])

/-- The inner loop of `edgeFaces` (L190-198) and `faceCells` (L209-217): the signed ids of one owner `i`. -/
def invertOne (dbg : Bool) (n : Nat) (i : Nat) : List Int → List (List Int) → Res (List (List Int))
  | [], result => .ok result
  | s :: ss, result => do
    Res.assert dbg (positiveID s < n)
    let result ← pushAt result (positiveID s) (if s < 0 then -(i : Int) - 1 else i)
    invertOne dbg n i ss result

/-- The outer loop of both (L189-199, L208-218), from owner `i` on. -/
def invertLoop (dbg : Bool) (n : Nat) : Nat → List (List Int) → List (List Int) → Res (List (List Int))
  | _, [], result => .ok result
  | i, l :: ls, result => do
    let result ← invertOne dbg n i l result
    invertLoop dbg n (i + 1) ls result

/-- `edgeFaces` (L187-201). -/
def edgeFaces (dbg : Bool) (q : QMesh P) : Res (List (List Int)) :=
  invertLoop dbg q.edges.length 0 q.faces (List.replicate q.edges.length [])

/-- `faceCells` (L206-220). -/
def faceCells (dbg : Bool) (q : QMesh P) : Res (List (List Int)) :=
  invertLoop dbg q.faces.length 0 q.cells (List.replicate q.faces.length [])

/-! ### Conversion to a `Tessellation` -/

/-- L251-258: the first node of each directed edge. Node ids are converted to `unsigned`: simplified to the ints themselves. -/
def faceNodesLoop (dbg : Bool) (npoints : Nat) (edges : List (Int × Int)) : List Int → Res (List Int)
  | [] => .ok []
  | s :: ss => do
    let e ← rd edges (positiveID s)
    let n := if 0 ≤ s then e.1 else e.2
    Res.assert dbg (below n npoints = true)
    let rest ← faceNodesLoop dbg npoints edges ss
    return n :: rest

/-- One turn of the loop over the faces in `tessellation` (L246-260). -/
def faceNodes (dbg : Bool) (npoints : Nat) (edges : List (Int × Int)) (face : List Int) : Res (List Int) :=
  match face with
  | [s] => do
    if s < 0 then Res.ub
    else
      let e ← rd edges s.toNat
      return [e.1, e.2]
  | ss => faceNodesLoop dbg npoints edges ss

/-- The loop over the faces in `tessellation` (L245-261). -/
def meshFaces (dbg : Bool) (npoints : Nat) (edges : List (Int × Int)) : List (List Int) → Res (List (List Int))
  | [] => .ok []
  | f :: fs => do
    let ns ← faceNodes dbg npoints edges f
    let rest ← meshFaces dbg npoints edges fs
    return ns :: rest

section
variable {K : Type} [Field K] [LinearOrder K]

/-- One coordinate of `labNodePosition` (L139-141). -/
def labCoord (low high u : K) : K := u * (high - low) + low

/-- One coordinate of `labNodePositionCollinear` (L151-157). -/
def labCoordCollinear (low high u : K) : K := if low = high then u + low else u * (high - low) + low

/-- The position that `tessellation` writes for a point whose normalised coordinates are `u` (L230-241). `low` and `high` are
`low_labframe` and `high_labframe`. The choice looks at `x` and `y` only, in both dimensions. -/
def labPosition {d : Nat} (low high u : Fin (d + 2) → K) (j : Fin (d + 2)) : K :=
  if low 0 = high 0 ∨ low 1 = high 1 then labCoordCollinear (low j) (high j) (u j) else labCoord (low j) (high j) (u j)
end

/-! ### `assertValid` (L273-364), in three dimensions -/

/-- `POLY_ASSERT(...)` for every element of a range. -/
def forRange (f : Nat → Res Unit) : Nat → Res Unit
  | 0 => .ok ()
  | n + 1 => do
    forRange f n
    f n

/-- L289-293: one node. -/
def validNode (dbg : Bool) (q : QMesh P) (ne : List (List Nat)) (i : Nat) : Res Unit := do
  let l ← rd ne i
  forRange (fun j => do
    let k ← rd l j
    let e ← rd q.edges k
    Res.assert dbg (e.1 = i ∨ e.2 = i)) l.length

/-- L294-312: one edge. -/
def validEdge (dbg : Bool) (q : QMesh P) (ne : List (List Nat)) (ef : List (List Int)) (i : Nat) : Res Unit := do
  let e ← rd q.edges i
  Res.assert dbg (below e.1 q.points.length = true)
  Res.assert dbg (below e.2 q.points.length = true)
  let n1 ← rd ne e.1.toNat
  Res.assert dbg (n1.count i = 1)
  let n2 ← rd ne e.2.toNat
  Res.assert dbg (n2.count i = 1)
  let l ← rd ef i
  forRange (fun j => do
    let iface ← rd l j
    Res.assert dbg (positiveID iface < q.faces.length)
    let f ← rd q.faces (positiveID iface)
    Res.assert dbg (f.count (if iface < 0 then -(i : Int) - 1 else i) = 1)) l.length

/-- The start of a directed edge. -/
def startOf (e : Int × Int) (s : Int) : Int := if 0 ≤ s then e.1 else e.2

/-- The end of a directed edge. -/
def endOf (e : Int × Int) (s : Int) : Int := if 0 ≤ s then e.2 else e.1

/-- L316-336: one edge of one face. The four cases of L322-330 are written with `startOf` and `endOf`. -/
def validFaceEdge (dbg : Bool) (q : QMesh P) (ef : List (List Int)) (i : Nat) (f : List Int) (j : Nat) : Res Unit := do
  let iedge1 ← rd f j
  let iedge2 ← rd f ((j + 1) % f.length)
  Res.assert dbg (positiveID iedge1 < q.edges.length)
  Res.assert dbg (positiveID iedge2 < q.edges.length)
  let e1 ← rd q.edges (positiveID iedge1)
  let e2 ← rd q.edges (positiveID iedge2)
  Res.assert dbg (endOf e1 iedge1 = startOf e2 iedge2)
  let l ← rd ef (positiveID iedge1)
  Res.assert dbg (l.count (if iedge1 < 0 then -(i : Int) - 1 else i) = 1)

/-- `std::count(v.begin(), v.begin(), x)` (L342, L344): both iterators are the first one, so that no element is looked at. -/
def countFromBeginToBegin (_v : List Int) (_x : Int) : Nat := 0

/-- L313-347: one face. -/
def validFace (dbg : Bool) (q : QMesh P) (ef fc : List (List Int)) (i : Nat) : Res Unit := do
  let f ← rd q.faces i
  Res.assert dbg (3 ≤ f.length)
  forRange (validFaceEdge dbg q ef i f) f.length
  let l ← rd fc i
  Res.assert dbg (l.length = 1 ∨ l.length = 2)
  forRange (fun j => do
    let icell ← rd l j
    Res.assert dbg (positiveID icell < q.generators)
    let c ← rd q.cells (positiveID icell)
    Res.assert dbg (countFromBeginToBegin c (if icell < 0 then -(i : Int) - 1 else i) = 1)) l.length

/-- L348-360: one cell. -/
def validCell (dbg : Bool) (q : QMesh P) (fc : List (List Int)) (i : Nat) : Res Unit := do
  let c ← rd q.cells i
  Res.assert dbg (4 ≤ c.length)
  forRange (fun j => do
    let iface ← rd c j
    Res.assert dbg (positiveID iface < q.faces.length)
    let l ← rd fc (positiveID iface)
    Res.assert dbg (l.count (if iface < 0 then -(i : Int) - 1 else i) = 1)) c.length

/-- `assertValid` (L273-364). Without assertions it does nothing. -/
def assertValid (dbg : Bool) (q : QMesh P) : Res Unit :=
  if dbg then do
    let ne ← nodeEdges dbg q
    let ef ← edgeFaces dbg q
    let fc ← faceCells dbg q
    Res.assert dbg (q.points.length = q.point2id.length)
    Res.assert dbg (q.edges.length = q.edge2id.length)
    Res.assert dbg (q.faces.length = q.face2id.length)
    Res.assert dbg (q.cells.length = q.generators)
    Res.assert dbg (ne.length = q.point2id.length)
    Res.assert dbg (ef.length = q.edges.length)
    Res.assert dbg (fc.length = q.faces.length)
    forRange (validNode dbg q ne) q.points.length
    forRange (validEdge dbg q ne ef) q.edges.length
    forRange (validFace dbg q ef fc) q.faces.length
    forRange (validCell dbg q fc) q.generators
  else .ok ()

/-- A call of one of the three functions that add an element. -/
inductive Op (P : Type) where
  | node (ix : P)
  | edge (x : Int × Int)
  | face (x : List Int)
  deriving DecidableEq, Repr

/-- One call. -/
def step (dbg : Bool) : Op P → QMesh P → Res (Nat × QMesh P)
  | .node ix, q => addNewNode dbg ix q
  | .edge x, q => addNewEdge dbg x q
  | .face x, q => addNewFace dbg x q

/-- A sequence of calls, in order: the ids they return and the mesh afterwards. -/
def run (dbg : Bool) : List (Op P) → QMesh P → Res (List Nat × QMesh P)
  | [], q => .ok ([], q)
  | o :: os, q => do
    let r ← step dbg o q
    let s ← run dbg os r.2
    return (r.1 :: s.1, s.2)

end Verif.QuantTess
