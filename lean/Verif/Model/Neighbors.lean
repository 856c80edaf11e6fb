import Verif.Model.Convex
import Verif.Model.Internal
import Verif.Model.Std
/-
Model of `DistributedTessellator::computeDomainNeighbors` (`/repo/src/DistributedTessellator.cc` L835-1029) in two dimensions: which processes have to exchange generators. The convex hull of a
list of points (`DimensionTraits::convexHull`, modelled in `Model/Hull.lean` and `Model/PLC.lean`) and the serial tessellations are parameters. Every process runs the same program. The broadcasts
L925-937 give every process the same list of hulls (serialization is modelled in `Model/Serialize.lean`), so that a run is a function of the points of all the processes.
-/
namespace Verif.Nbr
open Verif Verif.Mesh Verif.Geom
section
variable {K : Type} [Field K] [LinearOrder K]

/-- `hullDimension` (`/repo/src/DimensionTraits.hh` L80-85). -/
def hullDim (dbg : Bool) (h : RPLC K) : Res Nat :=
  match h.facets with
  | [f] => do
    Res.assert dbg (f.length = 2)
    let a ← rd f 0
    let b ← rd f 1
    return if a = b then 0 else 1
  | _ => .ok 2

/-- L874-877: the cells of the local mesh that are not within the hull, among those listed. -/
def exterior (dbg : Bool) (hull : RPLC K) (m : Tess K) : List Nat → Res (List Nat)
  | [] => .ok []
  | i :: is => do
    let c ← cellToPLC2 dbg m i
    let w ← convexWithin2 dbg c hull
    let r ← exterior dbg hull m is
    return if w then r else i :: r

/-- L884-892: the generators of these cells are added to the visible points, unless they are there already. -/
def addVisible (points : List K) : List Nat → List (V2 K) → Res (List (V2 K))
  | [], vis => .ok vis
  | i :: is, vis => do
    let p ← rdV2 points i
    addVisible points is (if p ∈ vis then vis else vis ++ [p])

/-- L842, L862-907: the hull of the points of one process, with all the points that are visible from outside instead of only those on the hull. The facets are not renumbered. -/
def visibleHull (dbg : Bool) (hull : List K → Res (RPLC K)) (serial : List K → Res (Tess K)) (points : List K) : Res (RPLC K) := do
  Res.assert dbg (points ≠ [])
  let h ← hull points
  let d ← hullDim dbg h
  let m ← serial points
  if d = 2 then do
    let ext ← exterior dbg h m (List.range (points.length / 2))
    let vis ← (List.range (h.points.length / 2)).mapM (rdV2 h.points)
    let vis ← addVisible points ext vis
    return { h with points := vis.flatMap fun p => [p.x, p.y] }
  else return { h with points := points }

omit [Field K] [LinearOrder K] in
/-- `domainCellOffset` (L860, L936): the number of the first visible point of each process, and at the end the number of all, when counting starts at `o`. -/
def offsets : Nat → List (RPLC K) → List Nat
  | o, [] => [o]
  | o, h :: hs => o :: offsets (o + h.points.length / 2) hs

/-- L993-998: the processes whose hulls intersect that of `rank`, among those listed. -/
def hullNeighbors (dbg : Bool) (hulls : List (RPLC K)) (rank : Nat) : List Nat → List Nat → Res (List Nat)
  | [], s => .ok s
  | q :: qs, s =>
    if q ≠ rank then do
      let a ← rd hulls q
      let b ← rd hulls rank
      let x ← convexIntersect2 dbg a b
      hullNeighbors dbg hulls rank qs (if x then setAdd q s else s)
    else hullNeighbors dbg hulls rank qs s

/-- L1006-1014: the cells that have a node in common with one of the listed cells. -/
def interest (nodeCells cellNodes : List (List Nat)) : List Nat → List Nat → Res (List Nat)
  | [], s => .ok s
  | i :: is, s => do
    let ns ← rd cellNodes i
    let cs ← ns.mapM (rd nodeCells)
    interest nodeCells cellNodes is (setAddAll s cs.flatten)

/-- The conversion of an `int` to `unsigned`. -/
def toUnsigned (i : Int) : Nat := (i % 4294967296).toNat

/-- L1017-1021: the owners of these cells. -/
def owners (dbg : Bool) (offs : List Nat) (rank : Nat) : List Nat → List Nat → Res (List Nat)
  | [], s => .ok s
  | c :: cs, s => do
    let r ← Internal.bisectSearch dbg offs c
    owners dbg offs rank cs (if toUnsigned r ≠ rank then setAdd (toUnsigned r) s else s)

/-- L987-1029: the neighbours of process `rank`, from the hulls of all processes and the mesh of all visible points. The set is in increasing order, so that the `sort` L1026 changes nothing. -/
def neighborsIn (dbg : Bool) (hulls : List (RPLC K)) (m : Tess K) (rank : Nat) : Res (List Nat) := do
  let s ← hullNeighbors dbg hulls rank (List.range hulls.length) []
  let nc ← computeNodeCells dbg 2 m
  let cn ← computeCellToNodes dbg m
  let a ← rd (offsets 0 hulls) rank
  let b ← rd (offsets 0 hulls) (rank + 1)
  let cs ← interest nc cn (List.range' a (b - a)) []
  owners dbg (offsets 0 hulls) rank cs s

/-- `computeDomainNeighbors`, as run by process `rank`. `points` are the points of all the processes, `serial` is the local tessellation (L873, L904) and `all` the tessellation of all the visible
points without boundary, in the box or in the PLC (L952-978). -/
def domainNeighbors (dbg : Bool) (hull : List K → Res (RPLC K)) (serial all : List K → Res (Tess K)) (points : List (List K)) (rank : Nat) : Res (List Nat) := do
  let hulls ← points.mapM (visibleHull dbg hull serial)
  let m ← all (hulls.flatMap (·.points))
  neighborsIn dbg hulls m rank
end
end Verif.Nbr
