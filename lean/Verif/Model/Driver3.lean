import Verif.Model.Quant
import Verif.Model.Mesh
import Verif.Model.Hull3
import Verif.Model.PLC
import Verif.Model.Snap
/-
Model of `/repo/src/TessellatorInline.hh` in three dimensions, with the parts that are to be written: `clipQuantizedTessellation3d.cc`, `fillTessellation` of `QuantizedTessellation3d.cc`, `makeBoxPLC` and
`snapToBoundary` in 3D. A list of coordinates is a list of points. `mesh` is empty at the start.
-/
namespace Verif.Driver3
open Verif Verif.Mesh Verif.Geom Verif.Hull3

/-- `clipQuantizedTessellation` in 3D (`clipQuantizedTessellation3d.cc` L13-18). -/
def clip3 (dbg : Bool) : Res Unit := Res.assert dbg False

/-- `fillTessellation` in 3D (`QuantizedTessellation3d.cc` L83-88). -/
def fill3 (dbg : Bool) (m : Tess ℝ) : Res (Tess ℝ) := do
  Res.assert dbg False
  return m

/-- The constructor of the quantized mesh from the coordinates each process passes as boundary (`QuantizedTessellation3d.cc` L21-36). -/
noncomputable def quant3 (dbg : Bool) (big : ℝ) (boundary : List (List (V3 ℝ))) (points : List (V3 ℝ)) : Res (List (Int × Int × Int)) := do
  let box ← globalBox dbg big 3 (boundary.map flat3)
  let bx ← rd box 0
  let by' ← rd box 1
  let bz ← rd box 2
  boundary3 dbg ⟨bx.1, by'.1, bz.1⟩ ⟨bx.2, by'.2, bz.2⟩ points

/-- `tessellate` without boundary (L11-33). `quantized` is what the `tessellateQuantized` of the tessellator does to the generators; what it fills in is not read. -/
noncomputable def free3 (quantized : List (Int × Int × Int) → Res Unit) (dbg : Bool) (big : ℝ) (procs : List (List (V3 ℝ))) (points : List (V3 ℝ)) : Res (Tess ℝ) := do
  Res.assert dbg (3 * points.length > 0)
  Res.assert dbg (3 * points.length % 2 = 0)
  let q ← quant3 dbg big procs points
  quantized q
  let m ← fill3 dbg {}
  let b ← findBoundaryElements dbg m
  return { m with boundaryFaces := b.1, boundaryNodes := b.2 }

/-- `tessellate` in a PLC (L53-84) with points `verts`. All processes pass the same PLC. -/
noncomputable def in3 (quantized : List (Int × Int × Int) → Res Unit) (dbg : Bool) (big : ℝ) (points verts : List (V3 ℝ)) (_plc : PLC) : Res (Tess ℝ) := do
  Res.assert dbg (3 * points.length > 0)
  Res.assert dbg (3 * points.length % 2 = 0)
  let q ← quant3 dbg big [verts] points
  quantized q
  clip3 dbg
  let m ← fill3 dbg {}
  let b ← findBoundaryElements dbg m
  let nodes ← Snap.snap3 dbg m.nodes
  return { m with nodes := nodes, boundaryFaces := b.1, boundaryNodes := b.2 }

/-- `tessellate` in a box (L38-48): `makeBoxPLC` leaves the PLC empty. -/
noncomputable def box3 (quantized : List (Int × Int × Int) → Res Unit) (dbg : Bool) (big : ℝ) (points : List (V3 ℝ)) (_lo _hi : V3 ℝ) : Res (Tess ℝ) := do
  let g ← makeBoxPLC3 dbg ({} : RPLC ℝ)
  in3 quantized dbg big points [] ⟨g.facets, g.holes⟩

/-- The boundaries of the four calls. A `ReducedPLC` (L89-96) is passed on as its points and facets. -/
inductive Bound where
  | free
  | box (lo hi : V3 ℝ)
  | plc (verts : List (V3 ℝ)) (g : PLC)
  | reduced (verts : List (V3 ℝ)) (g : PLC)

/-- The four calls of `tessellate`. -/
noncomputable def tess3 (quantized : List (Int × Int × Int) → Res Unit) (dbg : Bool) (big : ℝ) (procs : List (List (V3 ℝ))) (points : List (V3 ℝ)) : Bound → Res (Tess ℝ)
  | .free => free3 quantized dbg big procs points
  | .box lo hi => box3 quantized dbg big points lo hi
  | .plc verts g => in3 quantized dbg big points verts g
  | .reduced verts g => in3 quantized dbg big points verts g

/-- The box in which `tessellateDegenerate` makes the points unique (L101-198). -/
noncomputable def uniqueBox (dbg : Bool) (big : ℝ) (procs : List (List (V3 ℝ))) : Bound → Res Hash.HBox3
  | .box lo hi => .ok ⟨lo, hi⟩
  | .free => of procs
  | .plc verts _ => of [verts]
  | .reduced verts _ => of [verts]
where
  of (ps : List (List (V3 ℝ))) : Res Hash.HBox3 := do
    let box ← globalBox dbg big 3 (ps.map flat3)
    let bx ← rd box 0
    let by' ← rd box 1
    let bz ← rd box 2
    return ⟨⟨bx.1, by'.1, bz.1⟩, ⟨bx.2, by'.2, bz.2⟩⟩

/-- The four calls of `tessellateDegenerate` (L101-198). All processes reduce their points to unique ones. -/
noncomputable def degenerate3 (A : Points.Arith) (quantized : List (Int × Int × Int) → Res Unit) (dbg : Bool) (big eps tol : ℝ) (procs : List (List (V3 ℝ))) (points : List (V3 ℝ)) (b : Bound) : Res (Tess ℝ × List Nat) := do
  let box ← uniqueBox dbg big procs b
  let us ← procs.mapM fun ps => Hash.uniquePoints3 A dbg eps tol box ps
  let u ← Hash.uniquePoints3 A dbg eps tol box points
  let m ← tess3 quantized dbg big (us.map Prod.fst) u.1 b
  return (m, u.2)
end Verif.Driver3
