import Verif.Model.Quant
import Verif.Model.Readout
import Verif.Model.Mesh
import Verif.Model.Hash
/-
Model of `/repo/src/TessellatorInline.hh`: what every tessellator does around its own `tessellateQuantized`, in two dimensions. Coordinate lists are lists of pairs, so the assertion that their
length is even holds. `mesh` is empty at the start.
-/
namespace Verif.Driver
open Verif Verif.Mesh Verif.Geom Verif.Readout

/-- The coordinates of a list of points, one after the other. -/
def flat (ps : List (ℝ × ℝ)) : List ℝ := ps.flatMap fun p => [p.1, p.2]

/-- `tessellate` without boundary (L11-33). `quantized` is the `tessellateQuantized` of the tessellator, `procs` are the points of all processes, which share the bounding box, and `points` those of
this one. `big` is the largest number. -/
noncomputable def tessellateFree (quantized : QT → Res QT) (dbg : Bool) (big : ℝ) (procs : List (List (ℝ × ℝ))) (points : List (ℝ × ℝ)) : Res (Tess ℝ) := do
  Res.assert dbg (0 < points.length)
  let q ← boundaryQT dbg big (procs.map flat) points
  let q ← quantized q
  let m ← fillTess dbg q {}
  let b ← findBoundaryElements dbg m
  return { m with boundaryFaces := b.1, boundaryNodes := b.2 }

/-- A point as a vector, and back. -/
def toV (p : ℝ × ℝ) : V2 ℝ := ⟨p.1, p.2⟩
def ofV (p : V2 ℝ) : ℝ × ℝ := (p.x, p.y)

/-- `tessellateDegenerate` without boundary (L101-120). All processes reduce their points to unique ones, within the bounding box of the points of all of them. -/
noncomputable def tessellateDegenerateFree (A : Points.Arith) (quantized : QT → Res QT) (dbg : Bool) (big eps tol : ℝ) (procs : List (List (ℝ × ℝ))) (points : List (ℝ × ℝ)) : Res (Tess ℝ × List Nat) := do
  let box ← globalBox dbg big 2 (procs.map flat)
  let bx ← rd box 0
  let by' ← rd box 1
  let b : Hash.HBox := ⟨⟨bx.1, by'.1⟩, ⟨bx.2, by'.2⟩⟩
  let us ← procs.mapM fun ps => Hash.uniquePoints2 A dbg eps tol b (ps.map toV)
  let u ← Hash.uniquePoints2 A dbg eps tol b (points.map toV)
  let m ← tessellateFree quantized dbg big (us.map fun x => x.1.map ofV) (u.1.map ofV)
  return (m, u.2)
end Verif.Driver
