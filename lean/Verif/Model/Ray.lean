import Verif.Model.Measure
/-
Model of the ray intersections: `/repo/src/polytope_geometric_utilities.hh` L683-922. A result of `none` stands for the return value `false`.
-/
namespace Verif.Geom
open Verif Verif.Mesh

/-- `rayPlaneIntersection` (L695-730). The test for a ray in the plane multiplies with the origin of the ray, as written there (L708). -/
def rayPlane {K : Type} [Field K] [LinearOrder K] (p n pp np : V3 K) (tol : K) : Option (V3 K) :=
  let ndots := dot3 n np
  let delta := pp - p
  if |ndots| < tol then
    if |dot3 p delta| < tol then some p else none
  else
    let d := dot3 delta np / ndots
    if d ≥ 0 then some ⟨p.x + d * n.x, p.y + d * n.y, p.z + d * n.z⟩ else none

open Classical in
/-- `raySphereIntersection` (L743-778). It always returns `true`. -/
noncomputable def raySphere (dbg : Bool) (p n ps : V3 ℝ) (r tol : ℝ) : Res (V3 ℝ) := do
  Res.assert dbg (distance3 p ps ≤ r)
  Res.assert dbg (|n.x * n.x + n.y * n.y + n.z * n.z - 1| < 1 / 10 ^ 10)
  let rs0 := p - ps
  let b := 2 * dot3 n rs0
  let c := dot3 rs0 rs0 - r * r
  let d := b * b - 4 * c
  Res.assert dbg (d ≥ -tol)
  if d < tol then .ok p
  else
    let d := Real.sqrt d
    let t := 1 / 2 * max (-b - d) (-b + d)
    Res.assert dbg (t ≥ 0)
    let q : V3 ℝ := ⟨p.x + t * n.x, p.y + t * n.y, p.z + t * n.z⟩
    Res.assert dbg (|distance3 q ps - r| < tol)
    return q

open Classical in
/-- `rayCircleIntersection` (L791-826). It always returns `true`. -/
noncomputable def rayCircle (dbg : Bool) (p n pc : V2 ℝ) (r tol : ℝ) : Res (V2 ℝ) :=
  if distance2 p pc > r then .ok p
  else do
    Res.assert dbg (|n.x * n.x + n.y * n.y - 1| < 1 / 10 ^ 10)
    let rs0 := p - pc
    let b := dot2 n rs0
    let d := b * b - dot2 rs0 rs0 + r * r
    Res.assert dbg (d ≥ -tol)
    if d < tol then .ok p
    else
      let d := Real.sqrt d
      let t := max (-b - d) (-b + d)
      Res.assert dbg (t ≥ 0)
      return ⟨p.x + t * n.x, p.y + t * n.y⟩

/-- The state of `rayBoxIntersection`: `iplane`, `minDist`, `result` (`none` while not written). -/
structure BoxHit where
  iplane : Int
  minDist : ℝ
  result : Option (V3 ℝ)

open Classical in
/-- One of the blocks L860-919 for plane `i`, given the candidate of `rayPlaneIntersection`. The first block does not compare distances. -/
noncomputable def boxStep (p : V3 ℝ) (st : BoxHit) (i : Int) (cand : Option (V3 ℝ)) : BoxHit :=
  match cand with
  | none => st
  | some c => if i = 0 ∨ distance3 p c < st.minDist then ⟨i, distance3 p c, some c⟩ else st

/-- `rayBoxIntersection` (L847-922): `(iplane, result)`. `big` is `numeric_limits::max()`. -/
noncomputable def rayBox (big : ℝ) (p n lo hi : V3 ℝ) (tol : ℝ) : Int × Option (V3 ℝ) :=
  let ex : V3 ℝ := ⟨1, 0, 0⟩
  let ey : V3 ℝ := ⟨0, 1, 0⟩
  let ez : V3 ℝ := ⟨0, 0, 1⟩
  let st : BoxHit := ⟨-1, big, none⟩
  let st := boxStep p st 0 (rayPlane p n lo ex tol)
  let st := boxStep p st 1 (rayPlane p n hi ex tol)
  let st := boxStep p st 2 (rayPlane p n lo ey tol)
  let st := boxStep p st 3 (rayPlane p n hi ey tol)
  let st := boxStep p st 4 (rayPlane p n lo ez tol)
  let st := boxStep p st 5 (rayPlane p n hi ez tol)
  (st.iplane, st.result)
end Verif.Geom
