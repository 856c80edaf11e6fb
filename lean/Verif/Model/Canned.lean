import Verif.Model.Hull3
import Verif.Model.PLC
/-
The canned geometries of `/repo/src/polytope_plc_canned_geometries.hh` that are built with the convex hull in space: spheres and
cylinders. Exact real arithmetic, one process. (The circle and the boxes are in `Model/PLC`.)
-/
namespace Verif.Canned
open Verif Verif.Geom Verif.Hull3

/-- The points of a ring (L60-65 and L94-103): the angle of number `i` of `n`. -/
noncomputable def angle (n i : Nat) : ℝ := ((i : ℝ) + 1 / 2) * (2 * Real.pi / n)

/-- The points of `plc_cylinder` (L94-103). -/
noncomputable def cylinderPoints (c : V3 ℝ) (radius length : ℝ) (ncirc : Nat) : List (V3 ℝ) :=
  (List.range ncirc).flatMap fun i =>
    [⟨c.x + radius * Real.cos (angle ncirc i), c.y + radius * Real.sin (angle ncirc i), c.z + 1 / 2 * length⟩,
     ⟨c.x + radius * Real.cos (angle ncirc i), c.y + radius * Real.sin (angle ncirc i), c.z - 1 / 2 * length⟩]

/-- `plc_cylinder` (L83-116). The corner `low` is not used by the hull. -/
noncomputable def plcCylinder (A : Points.Arith) (dbg : Bool) (big eps : ℝ) (c : V3 ℝ) (radius length : ℝ) (ncirc : Nat) : Res (RPLC ℝ) := do
  Res.assert dbg (ncirc ≥ 3)
  let points := cylinderPoints c radius length ncirc
  let dx := length / 2 ^ 21
  let hull ← convexHull3 A dbg big eps dx [points] points
  return { points := flat3 points, facets := hull.facets }

/-- The number of points on the ring of `plc_sphere` with the angle `phi` (L55-58). The conversion to `unsigned` is undefined
for numbers that do not fit, and for the quotient by `dl = 0`. -/
noncomputable def ringSize (radius dphi phi : ℝ) : Res Nat :=
  let dl := radius * dphi
  let circ := 2 * Real.pi * (radius * Real.sin phi)
  if dl = 0 then .ub
  else
    let k := ⌊circ / dl + 1 / 2⌋
    if 0 ≤ k ∧ k < 2 ^ 32 then .ok (max 1 k.toNat) else .ub

/-- The points of one ring of `plc_sphere` (L60-65). -/
noncomputable def ringPoints (c : V3 ℝ) (radius phi : ℝ) (ntheta : Nat) : List (V3 ℝ) :=
  (List.range ntheta).map fun i =>
    ⟨c.x + radius * Real.cos (angle ntheta i) * Real.sin phi, c.y + radius * Real.sin (angle ntheta i) * Real.sin phi, c.z + radius * Real.cos phi⟩

/-- The loop over the rings (L52-66), for the rings with numbers in `l`. -/
noncomputable def spherePoints (c : V3 ℝ) (radius : ℝ) (nphi : Nat) : List Nat → Res (List (V3 ℝ))
  | [] => .ok []
  | i :: is => do
    let phi := ((i : ℝ) + 1 / 2) * (Real.pi / nphi)
    let ntheta ← ringSize radius (Real.pi / nphi) phi
    let r ← spherePoints c radius nphi is
    return ringPoints c radius phi ntheta ++ r

/-- `plc_sphere` (L41-79). -/
noncomputable def plcSphere (A : Points.Arith) (dbg : Bool) (big eps : ℝ) (c : V3 ℝ) (radius : ℝ) (nphi : Nat) : Res (RPLC ℝ) := do
  Res.assert dbg (nphi > 0)
  let points ← spherePoints c radius nphi (List.range nphi)
  let dx := radius / 2 ^ 21
  let hull ← convexHull3 A dbg big eps dx [points] points
  return { points := flat3 points, facets := hull.facets }

end Verif.Canned
