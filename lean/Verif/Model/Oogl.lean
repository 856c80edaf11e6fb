import Verif.Model.Mesh
import Verif.Model.Internal
import Mathlib.Data.List.Dedup
/-
Model of `writePLCtoOFF` (`/repo/src/polytope_write_OOGL.hh`), which writes a PLC and its points as a file in the OFF format of Geomview.

A file is the list of its tokens: in the OFF format ends of lines are white space like any other. How `operator<<` prints a floating point number (by default
with six significant digits) is not modelled: the token of a coordinate carries the number.
-/
namespace Verif
namespace Oogl
open Mesh

/-- A token of the file. -/
inductive Tok (R : Type) where
  | word (w : String)
  | int (i : Int)
  | real (x : R)
  deriving DecidableEq, Repr

/-- The facets of all holes, in the order of the two loops L40-45, L71-81 (2D) and L145-154 (3D). -/
def holeFacets (plc : PLC) : List (List Int) := plc.holes.flatten

/-- A facet: its size and its nodes, L61-67, L73-79, L136-141, L147-152. -/
def facetToks {R : Type} (f : List Int) : List (Tok R) := .int f.length :: f.map .int

/-- The lines of a facet in 2D, with its assertion on the size. -/
def facetToks2 {R : Type} (dbg : Bool) (f : List Int) : Res (List (Tok R)) := do
  Res.assert dbg (f.length = 2)
  pure (facetToks f)

/-- One insertion into the set of edges in 2D, L36-39 and L41-44. -/
def edge2 (dbg : Bool) (f : List Int) : Res (Int × Int) := do
  Res.assert dbg (f.length = 2)
  let a ← rd f 0
  let b ← rd f 1
  Internal.hashEdge dbg a b

/-- A line with the coordinates of point `i`, L55-57 and L130-132. -/
def pointToks {R : Type} (dim : Nat) (coords : List R) (i : Nat) : Res (List (Tok R)) :=
  (List.range dim).mapM fun d => do
    let x ← rd coords (dim * i + d)
    pure (Tok.real x)

/-- `writePLCtoOFF` for `PLC<2, RealType>`, L21-85. `nedges` is the size of the `std::set` of the hashed edges. -/
def writeOFF2 {R : Type} (dbg : Bool) (plc : PLC) (coords : List R) : Res (List (Tok R)) := do
  Res.assert dbg (coords.length % 2 = 0)
  let npoints := coords.length / 2
  let edges ← plc.facets.mapM (edge2 dbg)
  let holeEdges ← (holeFacets plc).mapM (edge2 dbg)
  let nedges := (edges ++ holeEdges).dedup.length
  let pts ← (List.range npoints).mapM (pointToks 2 coords)
  let fs ← plc.facets.mapM (facetToks2 dbg)
  let hs ← (holeFacets plc).mapM (facetToks2 dbg)
  pure (.word "OFF" :: .int npoints :: .int plc.facets.length :: .int nedges :: (pts.flatten ++ fs.flatten ++ hs.flatten))

/-- `writePLCtoOFF` for `PLC<3, RealType>`, L90-158. The loops that fill the set of edges are commented out (L105-120), so that `nedges` is 0. -/
def writeOFF3 {R : Type} (dbg : Bool) (plc : PLC) (coords : List R) : Res (List (Tok R)) := do
  Res.assert dbg (coords.length % 3 = 0)
  let npoints := coords.length / 3
  let nedges := 0
  let pts ← (List.range npoints).mapM (pointToks 3 coords)
  pure (.word "OFF" :: .int npoints :: .int plc.facets.length :: .int nedges ::
    (pts.flatten ++ plc.facets.flatMap facetToks ++ (holeFacets plc).flatMap facetToks))

end Oogl
end Verif
