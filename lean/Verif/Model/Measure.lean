import Verif.Model.Vec
import Verif.Model.Mesh
/-
Model of the cell measures of `/repo/src/polytope_geometric_utilities.hh` L927-1037 and L1228-1345: vertex centroid, signed area and centroid in 2D, face centroid and
normal, signed volume and centroid in 3D.
-/
namespace Verif.Geom
open Verif Verif.Mesh

/-- Read `nodes[2*n]`, `nodes[2*n+1]`. -/
def rdV2 {K : Type} (nodes : List K) (n : Nat) : Res (V2 K) := do
  let x ← rd nodes (2 * n)
  let y ← rd nodes (2 * n + 1)
  return ⟨x, y⟩

/-- Read `nodes[3*n]`, `nodes[3*n+1]`, `nodes[3*n+2]`. -/
def rdV3 {K : Type} (nodes : List K) (n : Nat) : Res (V3 K) := do
  let x ← rd nodes (3 * n)
  let y ← rd nodes (3 * n + 1)
  let z ← rd nodes (3 * n + 2)
  return ⟨x, y, z⟩

section
variable {K : Type} [Field K] [LinearOrder K]

/-- The loop of `computeCellCentroidAndSignedArea` (L968-985) over the faces; `acc` is `(area, ccent)`. -/
def areaLoop (dbg : Bool) (m : Tess K) : List Int → K × V2 K → Res (K × V2 K)
  | [], acc => .ok acc
  | s :: C, acc => do
    let f := posID s
    Res.assert dbg (f < m.faces.length)
    let F ← rd m.faces f
    Res.assert dbg (F.length = 2)
    let n0 ← rd F (if s < 0 then 1 else 0)
    let n1 ← rd F (if s < 0 then 0 else 1)
    Res.assert dbg (n0 < m.nodes.length / 2 ∧ n1 < m.nodes.length / 2)
    Res.assert dbg (n0 ≠ n1)
    let p0 ← rdV2 m.nodes n0
    let p1 ← rdV2 m.nodes n1
    let d := p0.x * p1.y - p0.y * p1.x
    areaLoop dbg m C (acc.1 + d, ⟨acc.2.x + d * (p0.x + p1.x), acc.2.y + d * (p0.y + p1.y)⟩)

/-- `computeCellCentroidAndSignedArea` (L959-990): `(area, ccent)`. A zero area divides by zero, which the C++ turns into infinities or NaNs. -/
def centroidAndArea (dbg : Bool) (m : Tess K) (ci : Nat) (tol : K) : Res (K × V2 K) := do
  Res.assert dbg (ci < m.cells.length)
  let C ← rd m.cells ci
  let r ← areaLoop dbg m C (0, 0)
  Res.assert dbg (|r.1| > tol)
  let area := r.1 / 2
  return (area, ⟨r.2.x / (6 * area), r.2.y / (6 * area)⟩)

/-- Sum of the positions of the listed nodes, `computeCellCentroid<3>` L944-949. -/
def sumNodes3 (dbg : Bool) (m : Tess K) : List Nat → V3 K → Res (V3 K)
  | [], acc => .ok acc
  | n :: ns, acc => do
    Res.assert dbg (n < m.nodes.length / 3)
    let p ← rdV3 m.nodes n
    sumNodes3 dbg m ns (acc + p)

/-- The nodes of all the faces of the cell, L935-938. -/
def cellFaceNodes (m : Tess K) : List Int → Res (List Nat)
  | [] => .ok []
  | s :: C => do
    let F ← rd m.faces (posID s)
    let r ← cellFaceNodes m C
    return F ++ r

/-- `computeCellCentroid<3>` (L927-953): the average of the distinct nodes. (`std::sort` then `std::unique`.) -/
def cellCentroid3 (dbg : Bool) (m : Tess K) (ci : Nat) : Res (V3 K) := do
  Res.assert dbg (ci < m.cells.length)
  let C ← rd m.cells ci
  let ns ← cellFaceNodes m C
  let u := uniq (ns.mergeSort (· ≤ ·))
  let s ← sumNodes3 dbg m u 0
  Res.assert dbg (u.length > 0)
  return s.div (u.length : K)

end

open Classical in
/-- The loop of `computeFaceCentroidAndNormal` (L1011-1022): the sum of the nodes, and up to three nodes that are not collinear. -/
noncomputable def faceLoop (dbg : Bool) (m : Tess ℝ) : List Nat → V3 ℝ → List (V3 ℝ) → Res (V3 ℝ × List (V3 ℝ))
  | [], acc, verts => .ok (acc, verts)
  | n :: ns, acc, verts => do
    Res.assert dbg (n < m.nodes.length / 3)
    let p ← rdV3 m.nodes n
    let verts' := if verts.length < 2 ∨ (verts.length = 2 ∧ ¬ collinear3 (verts.getD 0 0) (verts.getD 1 0) p (1 / 10 ^ 10)) then verts ++ [p] else verts
    faceLoop dbg m ns (acc + p) verts'

/-- `computeFaceCentroidAndNormal` (L995-1037): `(fcent, fhat)`. -/
noncomputable def faceCentroidAndNormal (dbg : Bool) (m : Tess ℝ) (fi : Nat) : Res (V3 ℝ × V3 ℝ) := do
  Res.assert dbg (fi < m.faces.length)
  let F ← rd m.faces fi
  Res.assert dbg (F.length ≥ 3)
  let r ← faceLoop dbg m F 0 []
  Res.assert dbg (F.length > 0)
  Res.assert dbg (r.2.length = 3)
  let v0 ← rd r.2 0
  let v1 ← rd r.2 1
  let v2 ← rd r.2 2
  return (r.1.div (F.length : ℝ), unitVector3 (cross3 (v1 - v0) (v2 - v0)))

/-- `tetrahedralVolumeAndCentroid6` (L1268-1287). -/
noncomputable def tetVolCent6 (n1 n2 n3 n4 : V3 ℝ) : ℝ × V3 ℝ :=
  (dot3 (cross3 (n3 - n1) (n2 - n1)) (n4 - n1),
   ⟨1 / 4 * (n1.x + n2.x + n3.x + n4.x), 1 / 4 * (n1.y + n2.y + n3.y + n4.y), 1 / 4 * (n1.z + n2.z + n3.z + n4.z)⟩)

/-- The inner loop L1324-1338 over the sides of one face. `F` is the face in the direction of the walk (reversed for a negative face: `i` runs down from `nn - 1` and the
next vertex of `i` is `(i - 1 + nn) % nn`), `ij` the remaining pairs of consecutive vertices. -/
noncomputable def tetLoop (m : Tess ℝ) (cmid fcent : V3 ℝ) : List (Nat × Nat) → ℝ × V3 ℝ → Res (ℝ × V3 ℝ)
  | [], acc => .ok acc
  | (i, j) :: ij, acc => do
    let pj ← rdV3 m.nodes j
    let pi ← rdV3 m.nodes i
    let t := tetVolCent6 cmid pj pi fcent
    tetLoop m cmid fcent ij (acc.1 + t.1, acc.2 + V3.scale t.1 t.2)

/-- The loop L1309-1339 over the faces of the cell. -/
noncomputable def volumeLoop (dbg : Bool) (m : Tess ℝ) (cmid : V3 ℝ) : List Int → ℝ × V3 ℝ → Res (ℝ × V3 ℝ)
  | [], acc => .ok acc
  | s :: C, acc => do
    let F ← rd m.faces (posID s)
    let fc ← faceCentroidAndNormal dbg m (posID s)
    let G := if s < 0 then F.reverse else F
    let acc ← tetLoop m cmid fc.1 (G.zip (G.rotate 1)) acc
    volumeLoop dbg m cmid C acc

/-- `computeCellCentroidAndSignedVolume` (L1292-1345): `(cvol, ccent)`. -/
noncomputable def centroidAndVolume (dbg : Bool) (m : Tess ℝ) (ci : Nat) : Res (ℝ × V3 ℝ) := do
  Res.assert dbg (ci < m.cells.length)
  let cmid ← cellCentroid3 dbg m ci
  let C ← rd m.cells ci
  let r ← volumeLoop dbg m cmid C (0, 0)
  Res.assert dbg (r.1 ≠ 0)
  return (r.1 / 6, r.2.div r.1)

end Verif.Geom
