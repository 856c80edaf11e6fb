import Verif.Model.Vec
/- Model of the circumcentre and centroid functions, `/repo/src/polytope_geometric_utilities.hh` L1058-1188. -/
namespace Verif.Geom
open Verif
section
variable {K : Type} [Field K]

/-- `computeCircumcenter` (L1055-1073), with the exact value of `orient2d`. -/
def circumcenter (A B C : V2 K) : V2 K :=
  let An := A.x * A.x + A.y * A.y
  let Bn := B.x * B.x + B.y * B.y
  let Cn := C.x * C.x + C.y * C.y
  let D := 2 * orient2d A B C
  ⟨orient2d ⟨An, A.y⟩ ⟨Bn, B.y⟩ ⟨Cn, C.y⟩ / D, orient2d ⟨A.x, An⟩ ⟨B.x, Bn⟩ ⟨C.x, Cn⟩ / D⟩

/-- `computeCircumcenter2d` (L1081-1091). -/
def circumcenter2d (A B C : V2 K) : V2 K :=
  let D := 2 * (A.x * (B.y - C.y) + B.x * (C.y - A.y) + C.x * (A.y - B.y))
  ⟨((A.x * A.x + A.y * A.y) * (B.y - C.y) + (B.x * B.x + B.y * B.y) * (C.y - A.y) + (C.x * C.x + C.y * C.y) * (A.y - B.y)) / D,
   ((A.x * A.x + A.y * A.y) * (C.x - B.x) + (B.x * B.x + B.y * B.y) * (A.x - C.x) + (C.x * C.x + C.y * C.y) * (B.x - A.x)) / D⟩

/-- `computeCircumcenter3d` (L1099-1121). -/
def circumcenter3d [DecidableEq K] (dbg : Bool) (A B C D : V3 K) : Res (V3 K) := do
  let a := B - A
  let b := C - A
  let c := D - A
  let denom := 2 * dot3 a (cross3 b c)
  Res.assert dbg (denom ≠ 0)
  return ⟨A.x + (dot3 a a * (cross3 b c).x + dot3 b b * (cross3 c a).x + dot3 c c * (cross3 a b).x) / denom,
          A.y + (dot3 a a * (cross3 b c).y + dot3 b b * (cross3 c a).y + dot3 c c * (cross3 a b).y) / denom,
          A.z + (dot3 a a * (cross3 b c).z + dot3 b b * (cross3 c a).z + dot3 c c * (cross3 a b).z) / denom⟩

/-- `computeTriangleCentroid2d` (L1161-1166). -/
def triangleCentroid2d (A B C : V2 K) : V2 K := ⟨(A.x + B.x + C.x) / 3, (A.y + B.y + C.y) / 3⟩
/-- `computeTetCentroid` (L1182-1188). -/
def tetCentroid (A B C D : V3 K) : V3 K := ⟨1 / 4 * (A.x + B.x + C.x + D.x), 1 / 4 * (A.y + B.y + C.y + D.y), 1 / 4 * (A.z + B.z + C.z + D.z)⟩
end

open Classical in
/-- `computeTriangleCircumcenter3d` (L1129-1156): `none` when it returns `false`. -/
noncomputable def triangleCircumcenter3d (dbg : Bool) (A B C : V3 ℝ) : Res (Option (V3 ℝ)) :=
  if collinear3 A B C (1 / 10 ^ 10) then .ok none
  else do
    let a := A - C
    let b := B - C
    let a2 := dot3 a a
    let b2 := dot3 b b
    let c : V3 ℝ := ⟨a2 * b.x - b2 * a.x, a2 * b.y - b2 * a.y, a2 * b.z - b2 * a.z⟩
    let d := cross3 a b
    let e := cross3 c d
    let d2 := dot3 d d
    Res.assert dbg (d2 > 0)
    return some ⟨1 / 2 * e.x / d2 + C.x, 1 / 2 * e.y / d2 + C.y, 1 / 2 * e.z / d2 + C.z⟩

end Verif.Geom
