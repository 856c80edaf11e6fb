import Verif.Model.Mesh
import Mathlib.Algebra.Order.Field.Basic
/-
Model of the bounding boxes: `/repo/src/polytope_geometric_utilities.hh` L600-681 and `/repo/src/DistributedTessellator.cc` L772-829. The arrays `xmin`, `xmax` are
lists of pairs (low, high), one per coordinate; the loop over the coordinates, whose iterations are independent, is the outer one here. `big` is
`numeric_limits<RealType>::max()` and `-big` the initial value of `xmax`.
-/
namespace Verif.Geom
open Verif Verif.Mesh
variable {K : Type} [Field K] [LinearOrder K]

/-- One step of the loop L617-622 for coordinate `j` of point `i`. -/
def boxPoint (d j : Nat) (pos : List K) (b : K × K) (i : Nat) : Res (K × K) := do
  let x ← rd pos (d * i + j)
  return (min b.1 x, max b.2 x)

/-- The loop L617-622 for coordinate `j`. -/
def boxCoord (big : K) (d j : Nat) (pos : List K) : Res (K × K) := (List.range (pos.length / d)).foldlM (boxPoint d j pos) (big, -big)

/-- `computeBoundingBox` (L603-633) without the global reduction. -/
def localBox (dbg : Bool) (big : K) (d : Nat) (pos : List K) : Res (List (K × K)) := do
  Res.assert dbg (pos.length % d = 0)
  (List.range d).mapM fun j => boxCoord big d j pos

/-- `allReduce` (`polytope_parallel_utilities.hh` L37-47): every process receives the combination of the values of all processes. There is at least one process. -/
def allReduce (op : K → K → K) : List K → K
  | [] => 0
  | v :: vs => vs.foldl op v

/-- The reduction of coordinate `j` (L625-631): `boxes` are the boxes of the processes. -/
def reduceCoord (boxes : List (List (K × K))) (j : Nat) : Res (K × K) := do
  let bs ← boxes.mapM fun b => rd b j
  return (allReduce min (bs.map Prod.fst), allReduce max (bs.map Prod.snd))

/-- The reduction L623-632: the box every process is left with. -/
def reduceBoxes (d : Nat) (boxes : List (List (K × K))) : Res (List (K × K)) := (List.range d).mapM (reduceCoord boxes)

/-- `computeBoundingBox` with `globalReduce` on every process, `procs` being the coordinates on each process. -/
def globalBox (dbg : Bool) (big : K) (d : Nat) (procs : List (List K)) : Res (List (K × K)) := do
  let boxes ← procs.mapM (localBox dbg big d)
  reduceBoxes d boxes

/-- The loop L667-672 of `expandBoundingBox` for one process with `n` points: nothing happens if there are no points. -/
def mergeBox (n : Nat) (old new : List (K × K)) : List (K × K) :=
  (List.range n).foldl (fun o _ => List.zipWith (fun a b => (min a.1 b.1, max a.2 b.2)) o new) old

/-- `expandBoundingBox` (L650-681) without the global reduction. -/
def expandLocal (dbg : Bool) (big : K) (d : Nat) (pos : List K) (old : List (K × K)) : Res (List (K × K)) := do
  let new ← localBox dbg big d pos
  return mergeBox (pos.length / d) old new

/-- `expandBoundingBox` with `globalReduce` on every process: `procs` pairs the coordinates on a process with the box it passes in. -/
def expandGlobal (dbg : Bool) (big : K) (d : Nat) (procs : List (List K × List (K × K))) : Res (List (K × K)) := do
  let new ← globalBox dbg big d (procs.map Prod.fst)
  reduceBoxes d (procs.map fun p => mergeBox (p.1.length / d) p.2 new)

/-- One step of the loop over the facets, `DistributedTessellator::computeBoundingBox` L802-818, for coordinate `j`. -/
def facetPoint (d j : Nat) (pos : List K) (b : K × K) (i : Int) : Res (K × K) := do
  let x ← if i < 0 then .ub else rd pos (d * i.toNat + j)
  return (min b.1 x, max b.2 x)

/-- The case `plc` of `DistributedTessellator::computeBoundingBox` (L800-820) on one process: only points named by a facet count. -/
def plcBox (big : K) (d : Nat) (facets : List (List Int)) (pos : List K) : Res (List (K × K)) :=
  (List.range d).mapM fun j => facets.flatten.foldlM (facetPoint d j pos) (big, -big)

/-- The case `plc` with the final reduction (L824-828); every process passes the same boundary. -/
def plcBoxGlobal (big : K) (d nproc : Nat) (facets : List (List Int)) (pos : List K) : Res (List (K × K)) := do
  let boxes ← (List.range nproc).mapM fun _ => plcBox big d facets pos
  reduceBoxes d boxes

/-- The case `unbounded` with the final reduction. -/
def unboundedBoxGlobal (dbg : Bool) (big : K) (d : Nat) (procs : List (List K)) : Res (List (K × K)) := do
  let boxes ← procs.mapM (localBox dbg big d)
  reduceBoxes d boxes
end Verif.Geom
