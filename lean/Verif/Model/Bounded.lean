import Verif.Model.Driver
import Verif.Model.Snap
import Verif.Model.PLC
/-
Model of tessellation inside a boundary in two dimensions: `/repo/src/TessellatorInline.hh` L38-95 and L122-173, and the part of `/repo/src/clipQuantizedTessellation2d.cc` that prepares the
polygons for Boost.Polygon and chooses among its results (L84-199). What Boost.Polygon computes is a parameter.
-/
namespace Verif.Driver
open Verif Verif.Mesh Verif.Geom Verif.Readout Verif.Snap

/-- Boost.Polygon, and the adoption of orphans. Polygons are lists of vertices; those that come from Boost repeat the first vertex at the end. -/
structure Boost where
  /-- `cellSet &= boundarySet` (L159-161): a polygon, the outer polygon of the boundary and its holes. -/
  inter : List P2 → List P2 → List (List P2) → List (List P2)
  /-- `bp::contains(polygon, point)`. -/
  contains : List P2 → P2 → Bool
  /-- L183-193 and L250-319: the orphans that are left after joining, and the cells that are rebuilt for them, with their polygons. -/
  adopt : QT → List (List P2) → List (List P2) → Res (Nat × List (Nat × List P2))

/-- L86-93, L103-110: the first points of the facets, in integers. -/
noncomputable def plcRing (dbg : Bool) (q : QT) (verts : List ℝ) (fs : List (List Int)) : Res (List P2) := fs.mapM fun f => do
  Res.assert dbg (f.length = 2)
  let k ← rd f 0
  if k < 0 then .ub else
  let p ← rdV2 verts k.toNat
  let x ← quantize1 cmin2 cmax2 q.length q.xmin p.x
  let y ← quantize1 cmin2 cmax2 q.length q.ymin p.y
  return (x, y)

/-- L147-154: the node at which a side of a cell starts. -/
def startNode (q : QT) (k : Int) : Res P2 := do
  let e ← rd q.edges (posID k)
  let i := if k < 0 then e.2 else e.1
  if i < 0 then .ub else
  let p ← rd q.nodes i.toNat
  return (p.x, p.y)

/-- L142-157. -/
def cellRing (q : QT) (C : List Int) : Res (List P2) := C.mapM (startNode q)

/-- L164-199 without the joining of orphans: the polygon of the cell and the orphans it leaves. `g` is the generator. -/
def choose (boost : Boost) (dbg : Bool) (g : P2) (ps : List (List P2)) : Res (List P2 × List (List P2)) := do
  let i := if 1 < ps.length then ps.findIdx fun r => boost.contains r g else 0
  Res.assert dbg (1 < ps.length → i < ps.length)
  let r ← rd ps i
  Res.assert dbg (boost.contains r g = true)
  return (r, ps.eraseIdx i)

/-- L139-199 for cell `i`. -/
def clipOne (boost : Boost) (dbg : Bool) (q : QT) (B : List P2) (H : List (List P2)) (c : List Int × Nat) : Res (List P2 × List (List P2)) := do
  let ring ← cellRing q c.1
  let g ← rd q.generators c.2
  choose boost dbg (g.x, g.y) (boost.inter ring B H)

/-- `clipQuantizedTessellation` (L50-470). In the code a cell is read out before the next one is clipped; here all are clipped first, which makes a difference only if both fail. The nodes, which
keep the index of some point read before, have index 0 here. -/
noncomputable def clipQuantized (boost : Boost) (dbg : Bool) (q : QT) (verts : List ℝ) (plc : Mesh.PLC) : Res QT := do
  let B ← plcRing dbg q verts plc.facets
  let H ← plc.holes.mapM (plcRing dbg q verts)
  let cs ← q.cellEdges.zipIdx.mapM (clipOne boost dbg q B H)
  let rings := cs.map Prod.fst
  let orphans := cs.flatMap Prod.snd
  let a ← (if orphans = [] then .ok (0, []) else boost.adopt q rings orphans : Res (Nat × List (Nat × List P2)))
  let r ← clipCode dbg rings a.1 a.2
  return { q with nodes := r.1.map fun p => ⟨p.1, p.2, 0⟩, edges := r.2.1, cellEdges := r.2.2 }

/-- `tessellate` in a PLC (L53-84). All processes pass the same PLC points, so that the bounding box is that of `verts`. -/
noncomputable def tessellateIn (quantized : QT → Res QT) (boost : Boost) (dbg : Bool) (big degeneracy : ℝ) (points : List (ℝ × ℝ)) (verts : List ℝ) (plc : Mesh.PLC) : Res (Tess ℝ) := do
  Res.assert dbg (0 < points.length)
  let q ← boundaryQT dbg big [verts] points
  let q ← quantized q
  let q ← clipQuantized boost dbg q verts plc
  let m ← fillTess dbg q {}
  let b ← findBoundaryElements dbg m
  let nodes ← snap2 dbg big degeneracy m.nodes b.2 verts plc
  return { m with nodes := nodes, boundaryFaces := b.1, boundaryNodes := b.2 }

/-- `tessellate` in a rectangle (L38-48). -/
noncomputable def tessellateBox (quantized : QT → Res QT) (boost : Boost) (dbg : Bool) (big degeneracy : ℝ) (points : List (ℝ × ℝ)) (xlo ylo xhi yhi : ℝ) : Res (Tess ℝ) := do
  let g ← makeBoxPLC2 ({} : RPLC ℝ) xlo ylo xhi yhi
  tessellateIn quantized boost dbg big degeneracy points g.points ⟨g.facets, g.holes⟩

/-- `tessellateDegenerate` in a PLC (L152-173): the points are reduced to unique ones within the bounding box of the PLC. -/
noncomputable def tessellateDegenerateIn (A : Points.Arith) (quantized : QT → Res QT) (boost : Boost) (dbg : Bool) (big degeneracy eps tol : ℝ) (points : List (ℝ × ℝ)) (verts : List ℝ) (plc : Mesh.PLC) : Res (Tess ℝ × List Nat) := do
  let box ← globalBox dbg big 2 [verts]
  let bx ← rd box 0
  let by' ← rd box 1
  let u ← Hash.uniquePoints2 A dbg eps tol ⟨⟨bx.1, by'.1⟩, ⟨bx.2, by'.2⟩⟩ (points.map toV)
  let m ← tessellateIn quantized boost dbg big degeneracy (u.1.map ofV) verts plc
  return (m, u.2)

/-- `tessellateDegenerate` in a rectangle (L126-145). -/
noncomputable def tessellateDegenerateBox (A : Points.Arith) (quantized : QT → Res QT) (boost : Boost) (dbg : Bool) (big degeneracy eps tol : ℝ) (points : List (ℝ × ℝ)) (xlo ylo xhi yhi : ℝ) : Res (Tess ℝ × List Nat) := do
  let u ← Hash.uniquePoints2 A dbg eps tol ⟨⟨xlo, ylo⟩, ⟨xhi, yhi⟩⟩ (points.map toV)
  let m ← tessellateBox quantized boost dbg big degeneracy (u.1.map ofV) xlo ylo xhi yhi
  return (m, u.2)
end Verif.Driver
