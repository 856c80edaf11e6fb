import Verif.Model.Mesh
import Verif.Model.Std
import Mathlib.Data.Int.Order.Basic
import Mathlib.Analysis.SpecialFunctions.Trigonometric.Basic
/-
Model of piecewise linear complexes: `/repo/src/PLC.hh`, `/repo/src/ReducedPLC.hh`, `/repo/src/makeBoxPLC.hh`, the circle and the boxes of
`/repo/src/polytope_plc_canned_geometries.hh`, and `cellToReducedPLC` (`/repo/src/polytope_geometric_utilities.hh` L1395-1480).
-/
namespace Verif.Geom
open Verif Verif.Mesh

/-- `ReducedPLC` (`ReducedPLC.hh` L19-30): a PLC with its own flat coordinate array. -/
structure RPLC (R : Type) where
  facets : List (List Int) := []
  holes : List (List (List Int)) := []
  points : List R := []
  deriving DecidableEq

/-- The loops of `PLC::valid` (`PLC.hh` L45-79). -/
def valid (D : Nat) (facets : List (List Int)) (holes : List (List (List Int))) : Bool :=
  if D = 2 then facets.all (fun f => f.length == 2) && holes.all fun h => h.all fun f => f.length == 2
  else if D = 3 then facets.all (fun f => !decide (f.length < 3)) && holes.all fun h => h.all fun f => !decide (f.length < 3)
  else true

/-- `PLC::empty` (`PLC.hh` L38-41). -/
def emptyPLC (p : PLC) : Bool := p.facets.isEmpty && p.holes.isEmpty

section
variable {R : Type}

/-- `ReducedPLC.hh` L43-50: append the coordinates of the points with the given ids. -/
def copyPoints (D : Nat) (all : List R) : List Int → Res (List R)
  | [] => .ok []
  | i :: is => do
    let p ← if 0 ≤ i ∧ D * (i.toNat + 1) ≤ all.length then .ok ((all.drop (D * i.toNat)).take D) else .ub
    let r ← copyPoints D all is
    return p ++ r

/-- `old2new[i]` (`std::map::operator[]`; a missing key reads as 0). The map sends the `j`-th id of the set to `j`. -/
def newID (indices : List Int) (i : Int) : Int := if i ∈ indices then (indices.idxOf i : Int) else 0

/-- The constructor `ReducedPLC(plc, allpoints)` (`ReducedPLC.hh` L33-57): the holes are copied from `plc` unchanged. -/
def reducedPLC (D : Nat) (plc : PLC) (all : List R) : Res (RPLC R) := do
  let indices := setAddAll [] plc.facets.flatten
  let pts ← copyPoints D all indices
  return { facets := plc.facets.map (·.map (newID indices)), holes := plc.holes, points := pts }

/-- `std::vector::resize(n, v)`. -/
def resize {α : Type} (l : List α) (n : Nat) (v : α) : List α := l.take n ++ List.replicate (n - l.length) v

/-- `makeBoxPLC.hh` L25-28: `facets[i][0] = i; facets[i][1] = (i + 1) % 4`, from facet `i` on. -/
def boxFacets : Nat → List (List Int) → Res (List (List Int))
  | _, [] => .ok []
  | i, f :: fs => do
    let f ← wr f 0 (i : Int)
    let f ← wr f 1 (((i + 1) % 4 : Nat) : Int)
    let r ← boxFacets (i + 1) fs
    return f :: r

/-- 2D `makeBoxPLC` (`makeBoxPLC.hh` L15-29) into an existing `result`. -/
def makeBoxPLC2 (result : RPLC R) (x1 y1 x2 y2 : R) : Res (RPLC R) := do
  let fs ← boxFacets 0 (resize result.facets 4 [0, 0])
  return { result with points := [x1, y1, x2, y1, x2, y2, x1, y2], facets := fs }

/-- 3D `makeBoxPLC` (`makeBoxPLC.hh` L34-39). -/
def makeBoxPLC3 (dbg : Bool) (result : RPLC R) : Res (RPLC R) := do
  Res.assert dbg False
  return result

/-- 2D `plc_box` (`polytope_plc_canned_geometries.hh` L126-165). -/
def plcBox2 (x1 y1 x2 y2 : R) : RPLC R :=
  { points := [x1, y1, x2, y1, x2, y2, x1, y2], facets := [[0, 1], [1, 2], [2, 3], [3, 0]] }

/-- 3D `plc_box` (`polytope_plc_canned_geometries.hh` L167-246). -/
def plcBox3 (x1 y1 z1 x2 y2 z2 : R) : RPLC R :=
  { points := [x1, y1, z2, x2, y1, z2, x1, y2, z2, x2, y2, z2, x1, y1, z1, x2, y1, z1, x1, y2, z1, x2, y2, z1],
    facets := [[0, 4, 5, 1], [2, 3, 7, 6], [0, 2, 6, 4], [1, 5, 7, 3], [0, 1, 3, 2], [5, 4, 6, 7]] }

/-- `plc_circle` (`polytope_plc_canned_geometries.hh` L13-36), with exact real arithmetic. -/
noncomputable def plcCircle (dbg : Bool) (cx cy radius : ℝ) (n : Nat) : Res (RPLC ℝ) := do
  Res.assert dbg (n > 2)
  let dtheta := 2 * Real.pi / n
  return { facets := (List.range n).map fun i : Nat => [(i : Int), (((i + 1) % n : Nat) : Int)],
           points := (List.range n).flatMap fun i : Nat => [cx + radius * Real.cos (((i : ℝ) + 1 / 2) * dtheta), cy + radius * Real.sin (((i : ℝ) + 1 / 2) * dtheta)] }

/-- The loop of the 2D `cellToReducedPLC` (`polytope_geometric_utilities.hh` L1409-1420): the points of the result. -/
def cellPoints2 (dbg : Bool) (m : Tess R) : List Int → Res (List R)
  | [] => .ok []
  | s :: ss => do
    Res.assert dbg (posID s < m.faces.length)
    let F ← rd m.faces (posID s)
    Res.assert dbg (F.length = 2)
    let ip ← if s < 0 then rd F 0 else rd F 1
    Res.assert dbg (ip < m.nodes.length / 2)
    let x ← rd m.nodes (2 * ip)
    let y ← rd m.nodes (2 * ip + 1)
    let r ← cellPoints2 dbg m ss
    return x :: y :: r

/-- 2D `cellToReducedPLC` (`polytope_geometric_utilities.hh` L1401-1423). -/
def cellToPLC2 (dbg : Bool) (m : Tess R) (icell : Nat) : Res (RPLC R) := do
  Res.assert dbg (empty m = false)
  Res.assert dbg (icell < m.cells.length)
  let C ← rd m.cells icell
  Res.assert dbg (C.length ≥ 3)
  let pts ← cellPoints2 dbg m C
  Res.assert dbg (pts.length / 2 = C.length)
  return { points := pts, facets := (List.range C.length).map fun i : Nat => [(i : Int), (((i + 1) % C.length : Nat) : Int)] }

/-- State of the 3D extraction: `keys[k]` is the mesh node with new id `k` (the map `old2new` inverted), and the coordinates so far. -/
structure Extract (R : Type) where
  keys : List Nat := []
  points : List R := []

/-- `polytope_geometric_utilities.hh` L1440-1447 (and L1456-1463): number one node and return its new id. -/
def addNode (dbg : Bool) (m : Tess R) (st : Extract R) (ip : Nat) : Res (Int × Extract R) := do
  Res.assert dbg (ip < m.nodes.length / 3)
  if ip ∈ st.keys then return ((st.keys.idxOf ip : Int), st)
  else do
    let x ← rd m.nodes (3 * ip)
    let y ← rd m.nodes (3 * ip + 1)
    let z ← rd m.nodes (3 * ip + 2)
    return (((st.points.length / 3 : Nat) : Int), { keys := st.keys ++ [ip], points := st.points ++ [x, y, z] })

/-- The loop over the nodes of a face, in the given order. -/
def addFacet (dbg : Bool) (m : Tess R) : List Nat → Extract R → Res (List Int × Extract R)
  | [], st => .ok ([], st)
  | ip :: ns, st => do
    let r ← addNode dbg m st ip
    let t ← addFacet dbg m ns r.2
    return (r.1 :: t.1, t.2)

/-- The loop L1432-1466 over the faces of the cell: a reversed face is walked backwards. -/
def addFacets (dbg : Bool) (m : Tess R) : List Int → Extract R → Res (List (List Int) × Extract R)
  | [], st => .ok ([], st)
  | s :: ss, st => do
    let F ← rd m.faces (posID s)
    let r ← addFacet dbg m (if s < 0 then F.reverse else F) st
    Res.assert dbg (r.1.length = F.length)
    let t ← addFacets dbg m ss r.2
    return (r.1 :: t.1, t.2)

/-- 3D `cellToReducedPLC` (`polytope_geometric_utilities.hh` L1427-1470). -/
def cellToPLC3 (dbg : Bool) (m : Tess R) (icell : Nat) : Res (RPLC R) := do
  Res.assert dbg (icell < m.cells.length)
  let C ← rd m.cells icell
  let r ← addFacets dbg m C {}
  Res.assert dbg (r.1.length = C.length)
  return { facets := r.1, points := r.2.points }

end
end Verif.Geom
