import Verif.Model.Measure
import Verif.Model.PLC
/-
Model of the 2D queries: `closestPointOnSegment2D`, `segmentIntersection2D`, `between`, the collinearity of a cloud of points (`/repo/src/polytope_geometric_utilities.hh`),
`/repo/src/nearestPoint.hh` and `/repo/src/intersect.hh`.
-/
namespace Verif.Geom
open Verif Verif.Mesh

/-- `closestPointOnSegment2D` (`polytope_geometric_utilities.hh` L502-521). -/
noncomputable def closestOnSeg (p s1 s2 : V2 ℝ) : V2 ℝ :=
  let shat := s2 - s1
  let seglength := Real.sqrt (shat.x * shat.x + shat.y * shat.y)
  if seglength < 1 / 10 ^ 10 then ⟨1 / 2 * (s1.x + s2.x), 1 / 2 * (s1.y + s2.y)⟩
  else
    let u := shat.div seglength
    let ptest := max 0 (min seglength (dot2 (p - s1) u))
    ⟨s1.x + ptest * u.x, s1.y + ptest * u.y⟩

section
variable {K : Type} [Field K] [LinearOrder K]

/-- The two end points of a facet, `nearestPoint.hh` L41-46 and `intersect.hh` L36-44. A negative id converted to `unsigned` is far out of range. `check` says whether the
ids are asserted to be in range (they are not in `intersect.hh`). -/
def facetEnds (dbg check : Bool) (n : Nat) (verts : List K) (f : List Int) : Res (V2 K × V2 K) := do
  Res.assert dbg (f.length = 2)
  let i ← rd f 0
  let j ← rd f 1
  Res.assert (dbg && check) (0 ≤ i ∧ i < n)
  Res.assert (dbg && check) (0 ≤ j ∧ j < n)
  if i < 0 ∨ j < 0 then .ub
  else
    let a ← rdV2 verts i.toNat
    let b ← rdV2 verts j.toNat
    return (a, b)

/-- `segmentIntersection2D` (`polytope_geometric_utilities.hh` L1193-1226). -/
def segIntersect (a b c d : V2 K) (tol : K) : Option (V2 K) :=
  let r1 := b - a
  let r2 := d - c
  let ca := c - a
  let k := cross2 r1 r2
  if k = 0 then none
  else
    let p1 := cross2 ca r2 / k
    let p2 := cross2 ca r1 / k
    if -tol ≤ p1 ∧ p1 ≤ 1 + tol ∧ -tol ≤ p2 ∧ p2 ≤ 1 + tol then
      if p1 < tol then some a
      else if p1 > 1 - tol then some b
      else if p2 < tol then some c
      else if p2 > 1 - tol then some d
      else some ⟨c.x + p2 * r2.x, c.y + p2 * r2.y⟩
    else none

/-- The loop of `IntersectFacetsFunctor<2>::impl` (`intersect.hh` L35-64): `(numIntersections, result)`. -/
def intersectLoop (dbg : Bool) (n : Nat) (verts : List K) (p1 p2 : V2 K) (tol : K) : List (List Int) → Nat × List K → Res (Nat × List K)
  | [], acc => .ok acc
  | f :: fs, acc => do
    let e ← facetEnds dbg false n verts f
    match segIntersect p1 p2 e.1 e.2 tol with
    | none => intersectLoop dbg n verts p1 p2 tol fs acc
    | some q =>
      if acc.1 = 0 ∨ (q.x ≠ acc.2.getLastD 0 - 1 ∧ q.y ≠ acc.2.getLastD 0) then intersectLoop dbg n verts p1 p2 tol fs (acc.1 + 1, acc.2 ++ [q.x, q.y])
      else intersectLoop dbg n verts p1 p2 tol fs acc

/-- The holes of `intersect` (`intersect.hh` L93-99). -/
def intersectHoles (dbg : Bool) (n : Nat) (verts : List K) (p1 p2 : V2 K) (tol : K) : List (List (List Int)) → Nat × List K → Res (Nat × List K)
  | [], acc => .ok acc
  | h :: hs, acc => do
    let r ← intersectLoop dbg n verts p1 p2 tol h (0, acc.2)
    intersectHoles dbg n verts p1 p2 tol hs (acc.1 + r.1, r.2)

/-- `intersect` (`intersect.hh` L81-101); `tol` is the default `1.0e-8` there. -/
def intersect (dbg : Bool) (n : Nat) (verts : List K) (p1 p2 : V2 K) (tol : K) (plc : PLC) (result : List K) : Res (Nat × List K) := do
  let r ← intersectLoop dbg n verts p1 p2 tol plc.facets (0, result)
  intersectHoles dbg n verts p1 p2 tol plc.holes r
end

/-- The loop of `ClosestPointOnFacetsFunctor<2>::impl` (`nearestPoint.hh` L36-56): `(minDist, result)`; `none` is a result that was not written. -/
noncomputable def closestLoop (dbg : Bool) (n : Nat) (verts : List ℝ) (p : V2 ℝ) : List (List Int) → ℝ × Option (V2 ℝ) → Res (ℝ × Option (V2 ℝ))
  | [], acc => .ok acc
  | f :: fs, acc => do
    let e ← facetEnds dbg true n verts f
    let q := closestOnSeg p e.1 e.2
    if distance2 p q < acc.1 then closestLoop dbg n verts p fs (distance2 p q, some q) else closestLoop dbg n verts p fs acc

/-- The holes of `nearestPoint` (`nearestPoint.hh` L84-91); `big` is `numeric_limits::max()`. -/
noncomputable def nearestHoles (dbg : Bool) (big : ℝ) (n : Nat) (verts : List ℝ) (p : V2 ℝ) : List (List (List Int)) → ℝ × Option (V2 ℝ) → Res (ℝ × Option (V2 ℝ))
  | [], acc => .ok acc
  | h :: hs, acc => do
    let r ← closestLoop dbg n verts p h (big, none)
    if r.1 < acc.1 then nearestHoles dbg big n verts p hs r else nearestHoles dbg big n verts p hs acc

/-- `nearestPoint` (`nearestPoint.hh` L73-93). -/
noncomputable def nearestPoint (dbg : Bool) (big : ℝ) (n : Nat) (verts : List ℝ) (p : V2 ℝ) (plc : PLC) : Res (ℝ × Option (V2 ℝ)) := do
  let r ← closestLoop dbg n verts p plc.facets (big, none)
  nearestHoles dbg big n verts p plc.holes r

/-- `between<Dimension>` (`polytope_geometric_utilities.hh` L449-473) after its first loop: `ab2`, `ac2`, `bc2` are the squared lengths, `thpt` the product of `ab` and `ac`. -/
def betweenTest {K : Type} [Field K] [LinearOrder K] (ab2 ac2 bc2 thpt tol : K) : Bool :=
  if min ac2 bc2 ≤ tol * ab2 then true
  else if ab2 ≤ tol then false
  else decide (thpt > 0) && decide (|thpt * thpt - ab2 * ac2| < tol * ab2) && decide (ac2 ≤ ab2)
/-- `between<2>`. -/
def between2 {K : Type} [Field K] [LinearOrder K] (a b c : V2 K) (tol : K) : Bool :=
  betweenTest (dot2 (b - a) (b - a)) (dot2 (c - a) (c - a)) (dot2 (c - b) (c - b)) (dot2 (b - a) (c - a)) tol
/-- `between<3>`. -/
def between3 {K : Type} [Field K] [LinearOrder K] (a b c : V3 K) (tol : K) : Bool :=
  betweenTest (dot3 (b - a) (b - a)) (dot3 (c - a) (c - a)) (dot3 (c - b) (c - b)) (dot3 (b - a) (c - a)) tol

/-- The loop of the cloud version of `collinear` (L485-494) from point `i` on, for `n` points; `test` is the three-point test. `i` grows until it is exactly `n`; reading
past the end is undefined. `fuel` is the number of remaining reads allowed by the length of the array. -/
def cloudLoop {R : Type} (D n : Nat) (test : List R → List R → List R → Bool) (pts : List R) (i fuel : Nat) : Res Bool :=
  if i = n then .ok true
  else match fuel with
    | 0 => .ub
    | fuel + 1 =>
      if pts.length < D * i + D then .ub
      else if test ((pts.drop 0).take D) ((pts.drop D).take D) ((pts.drop (D * i)).take D) then cloudLoop D n test pts (i + 1) fuel
      else .ok false

/-- `collinear` of a cloud of points (L479-496). -/
def cloudCollinear {R : Type} (dbg : Bool) (D : Nat) (test : List R → List R → List R → Bool) (pts : List R) : Res Bool := do
  Res.assert dbg (pts.length % D = 0)
  if pts.length / D > 1 then cloudLoop D (pts.length / D) test pts D (pts.length + 1) else .ok true

end Verif.Geom
