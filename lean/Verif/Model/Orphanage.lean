import Verif.Model.Vec
import Verif.Model.Cxx
/-
Model of the helpers of the orphanage that simplify a polygon: `removeCollinearPointsFromPLC` and `simplifyPLC`, `/repo/src/BoostOrphanage.cc`
L92-154. Coordinates are unbounded integers (`CoordHash` is `int` in the calls L419, L449 and L564).
-/
namespace Verif.Orphanage
open Verif Verif.Geom

/-- `ReducedPLC<2, CoordHash>`: points as a flat array, facets and holes. -/
structure IPlc where
  points : List Int
  facets : List (List Int)
  holes : List (List (List Int))
  deriving DecidableEq, Repr

/-- `plc.points[2*k]` and `plc.points[2*k+1]`. -/
def getPt (points : List Int) (k : Int) : Res (V2 Int) :=
  if k < 0 then .ub else do
    let x ← rd points (2 * k.toNat)
    let y ← rd points (2 * k.toNat + 1)
    return ⟨x, y⟩

/-- The loop of `removeCollinearPointsFromPLC` (L97-113) over the facets `is`. `test` is the three-point test. -/
def cornerLoop (test : V2 Int → V2 Int → V2 Int → Bool) (dbg : Bool) (plc : IPlc) : List Nat → Res (List Int)
  | [] => .ok []
  | i :: is => do
    let f1 ← rd plc.facets i
    let f2 ← rd plc.facets ((i + 1) % plc.facets.length)
    Res.assert dbg (f1.length = 2 ∧ f2.length = 2)
    let k1 ← rd f1 0
    let k2 ← rd f1 1
    let k2' ← rd f2 0
    Res.assert dbg (k2 = k2')
    let k3 ← rd f2 1
    Res.assert dbg (k1 ≠ k2 ∧ k1 ≠ k3 ∧ k2 ≠ k3)
    let a ← getPt plc.points k1
    let b ← getPt plc.points k2
    let c ← getPt plc.points k3
    let rest ← cornerLoop test dbg plc is
    return if test a b c then rest else b.x :: b.y :: rest

/-- The end of both functions (L114-120, L147-153): the facets of the new polygon. `plc = result` leaves no holes. -/
def rering (dbg : Bool) (nFacets : Nat) (points : List Int) : Res IPlc := do
  Res.assert dbg (points.length / 2 > 0 ∧ points.length / 2 ≤ nFacets)
  return ⟨points, (List.range (points.length / 2)).map fun i => [Int.ofNat i, Int.ofNat ((i + 1) % (points.length / 2))], []⟩

/-- `removeCollinearPointsFromPLC` (L92-121) with a test. -/
def removeCollinearWith (test : V2 Int → V2 Int → V2 Int → Bool) (dbg : Bool) (plc : IPlc) : Res IPlc := do
  let pts ← cornerLoop test dbg plc (List.range plc.facets.length)
  rering dbg plc.facets.length pts

/-- An integral point as one of reals. -/
def toReal (p : V2 Int) : V2 ℝ := ⟨p.x, p.y⟩

open Classical in
/-- `removeCollinearPointsFromPLC` (L92-121) with the test of the library, `collinear<2>`, whose calculation is in `double`. -/
noncomputable def removeCollinear (dbg : Bool) (plc : IPlc) (tol : Int) : Res IPlc :=
  removeCollinearWith (fun a b c => decide (collinear2 (toReal a) (toReal b) (toReal c) tol)) dbg plc

/-- The loop of `simplifyPLC` (L131-146). `isLong` is the test of L137-142. -/
def longLoop (isLong : V2 Int → V2 Int → Bool) (dbg : Bool) (points : List Int) : List (List Int) → Res (List Int)
  | [] => .ok []
  | f :: fs => do
    Res.assert dbg (f.length = 2)
    let i1 ← rd f 0
    let i2 ← rd f 1
    Res.assert dbg ((0 ≤ i1 ∧ i1 < (points.length / 2 : Nat)) ∧ 0 ≤ i2 ∧ i2 < (points.length / 2 : Nat))
    let p1 ← getPt points i1
    let p2 ← getPt points i2
    let rest ← longLoop isLong dbg points fs
    return if isLong p1 p2 then p1.x :: p1.y :: rest else rest

/-- `simplifyPLC` (L126-154) with a test. -/
def simplifyWith (isLong : V2 Int → V2 Int → Bool) (dbg : Bool) (plc : IPlc) : Res IPlc := do
  let pts ← longLoop isLong dbg plc.points plc.facets
  rering dbg plc.facets.length pts

open Classical in
/-- `simplifyPLC` (L126-154) with the test of L137-142. -/
noncomputable def simplifyPLC (dbg : Bool) (plc : IPlc) (tol : Int) : Res IPlc :=
  simplifyWith (fun p q => decide (distance2 (toReal q) (toReal p) > tol)) dbg plc

end Verif.Orphanage
