import Verif.Model.Query
/-
Model of the convex containment and intersection tests: `/repo/src/convexWithin.hh`, `/repo/src/convexIntersect.hh` and the half-plane tests `aboveBelow`, `computeNormal` of
`/repo/src/polytope_geometric_utilities.hh` L1482-1583. The functions `compare` and `computeNormal` of `convexIntersect.hh` L15-101 are the same code under another name.
The products are computed in `double`; here they are exact.
-/
namespace Verif.Geom
open Verif Verif.Mesh
section
variable {K : Type} [Field K] [LinearOrder K]

/-- `aboveBelow` of a point and a line (L1488-1498). -/
def aboveBelow2 (a b p : V2 K) : Int :=
  let ztest := (b.x - a.x) * (p.y - a.y) - (b.y - a.y) * (p.x - a.x)
  Neg.neg (if ztest < 0 then -1 else if ztest > 0 then 1 else 0)

/-- `aboveBelow` of a point and a plane (L1508-1517). -/
def aboveBelow3 (o n p : V3 K) : Int :=
  let ztest := n.x * (p.x - o.x) + n.y * (p.y - o.y) + n.z * (p.z - o.z)
  if ztest < 0 then -1 else if ztest > 0 then 1 else 0

/-- The loop of the cloud versions of `aboveBelow` (L1532-1541, L1557-1566): `side` is the test of one point, read by `read`; `fuel` points remain. -/
def cloudSideLoop {P : Type} (read : Nat → Res P) (side : P → Int) (result : Int) : Nat → Nat → Res Int
  | _, 0 => .ok result
  | i, fuel + 1 => do
    let p ← read i
    if result = side p then cloudSideLoop read side result (i + 1) fuel else .ok 0

/-- `aboveBelow` of a cloud of points and a line (L1524-1542). -/
def cloudSide2 (dbg : Bool) (a b : V2 K) (pts : List K) : Res Int := do
  Res.assert dbg (pts.length % 2 = 0)
  Res.assert dbg (pts.length > 1)
  let n := pts.length / 2
  let p ← rdV2 pts 0
  cloudSideLoop (rdV2 pts) (aboveBelow2 a b) (aboveBelow2 a b p) 1 (n - 1)

/-- `aboveBelow` of a cloud of points and a plane (L1549-1567). -/
def cloudSide3 (dbg : Bool) (o n : V3 K) (pts : List K) : Res Int := do
  Res.assert dbg (pts.length % 3 = 0)
  Res.assert dbg (pts.length > 1)
  let k := pts.length / 3
  let p ← rdV3 pts 0
  cloudSideLoop (rdV3 pts) (aboveBelow3 o n) (aboveBelow3 o n p) 1 (k - 1)

/-- `computeNormal` (L1572-1583). The first component is as written there. -/
def computeNormal (a b c : V3 K) : V3 K :=
  let ab := b - a
  let ac := c - a
  ⟨ab.y * ac.z - ab.z * ac.z, ab.z * ac.x - ab.x * ac.z, ab.x * ac.y - ab.y * ac.x⟩

/-- The facets of `b` as lines, and the question whether all of `pts` is on side `want` of one (`convexIntersect.hh` L134-147) or fails to be on side `want` of one
(`convexWithin.hh` L29-41). Returns whether the loop stopped early. -/
def scan2 (dbg : Bool) (b : RPLC K) (pts : List K) (stop : Int → Bool) : List (List Int) → Res Bool
  | [] => .ok false
  | f :: fs => do
    let i ← rd f 0
    let j ← rd f 1
    Res.assert dbg (0 ≤ i ∧ i < b.points.length / 2)
    Res.assert dbg (0 ≤ j ∧ j < b.points.length / 2)
    if i < 0 ∨ j < 0 then .ub
    else
      let p ← rdV2 b.points i.toNat
      let q ← rdV2 b.points j.toNat
      let s ← cloudSide2 dbg p q pts
      if stop s then .ok true else scan2 dbg b pts stop fs

/-- `convexWithin` in 2D (`convexWithin.hh` L18-43). -/
def convexWithin2 (dbg : Bool) (a b : RPLC K) : Res Bool := do
  let stopped ← scan2 dbg b a.points (fun s => s != -1) b.facets
  return !stopped

/-- `convexIntersect` in 2D (`convexIntersect.hh` L121-168). -/
def convexIntersect2 (dbg : Bool) (a b : RPLC K) : Res Bool := do
  let o ← scan2 dbg a b.points (fun s => s == 1) a.facets
  if o then .ok false
  else
    let o ← scan2 dbg b a.points (fun s => s == 1) b.facets
    return !o

/-- The facets of `b` as planes, as `scan2`. `bound` is the number the ids are asserted to be below: `points.size()/2` in `convexWithin.hh` L51, `points.size()/3` in
`convexIntersect.hh` L176. -/
def scan3 (dbg : Bool) (b : RPLC K) (bound : Nat) (pts : List K) (stop : Int → Bool) : List (List Int) → Res Bool
  | [] => .ok false
  | f :: fs => do
    let i ← rd f 0
    let j ← rd f 1
    let k ← rd f 2
    Res.assert dbg (0 ≤ i ∧ i < bound)
    Res.assert dbg (0 ≤ j ∧ j < bound)
    Res.assert dbg (0 ≤ k ∧ k < bound)
    if i < 0 ∨ j < 0 ∨ k < 0 then .ub
    else
      let p ← rdV3 b.points i.toNat
      let q ← rdV3 b.points j.toNat
      let r ← rdV3 b.points k.toNat
      let s ← cloudSide3 dbg p (computeNormal p q r) pts
      if stop s then .ok true else scan3 dbg b bound pts stop fs

/-- `convexWithin` in 3D (`convexWithin.hh` L48-80). -/
def convexWithin3 (dbg : Bool) (a b : RPLC K) : Res Bool := do
  let stopped ← scan3 dbg b (b.points.length / 2) a.points (fun s => s != -1) b.facets
  return !stopped

/-- `hashEdge` (`convexIntersect.hh` L106-110). -/
def hashEdge (dbg : Bool) (i j : Int) : Res (Int × Int) := do
  Res.assert dbg (i ≠ j)
  return if i < j then (i, j) else (j, i)

/-- The order of `std::pair<int, int>`. -/
def edgeLt (a b : Int × Int) : Bool := decide (a.1 < b.1) || (decide (a.1 = b.1) && decide (a.2 < b.2))

/-- Insert into a `std::set` of edges kept in increasing order. -/
def edgeInsert (e : Int × Int) : List (Int × Int) → List (Int × Int)
  | [] => [e]
  | x :: xs => if edgeLt e x then e :: x :: xs else if edgeLt x e then x :: edgeInsert e xs else x :: xs

/-- The edges of one facet (`convexIntersect.hh` L235-240), from position `i` on. -/
def facetEdges (dbg : Bool) (f : List Int) : Nat → Nat → List (Int × Int) → Res (List (Int × Int))
  | _, 0, acc => .ok acc
  | i, fuel + 1, acc => do
    let x ← rd f i
    let y ← rd f ((i + 1) % f.length)
    let e ← hashEdge dbg x y
    facetEdges dbg f (i + 1) fuel (edgeInsert e acc)

/-- The set of the edges (`convexIntersect.hh` L231-248). -/
def allEdges (dbg : Bool) : List (List Int) → List (Int × Int) → Res (List (Int × Int))
  | [], acc => .ok acc
  | f :: fs, acc => do
    let acc ← facetEdges dbg f 0 f.length acc
    allEdges dbg fs acc

/-- The body of the loops over the edges (`convexIntersect.hh` L259-274) for first end points `i` of `a` and `j` of `b`: whether a separating direction was found. -/
def edgeTest (dbg : Bool) (a b : RPLC K) (i j : Int) : Res Bool := do
  if i < 0 ∨ j < 0 then .ub
  else
    let p ← rdV3 a.points i.toNat
    let q ← rdV3 b.points j.toNat
    let n := computeNormal 0 p q
    let sidea ← cloudSide3 dbg p n a.points
    if sidea = 0 then .ok false
    else
      let sideb ← cloudSide3 dbg p n b.points
      if sideb = 0 then .ok false
      else return decide (sidea * sideb < 0)

/-- The inner loop (`convexIntersect.hh` L256-275). -/
def edgeInner (dbg : Bool) (a b : RPLC K) (i : Int) : List (Int × Int) → Res Bool
  | [] => .ok false
  | e :: es => do
    let t ← edgeTest dbg a b i e.1
    if t then .ok true else edgeInner dbg a b i es

/-- The outer loop (`convexIntersect.hh` L252-276). -/
def edgeOuter (dbg : Bool) (a b : RPLC K) (bEdges : List (Int × Int)) : List (Int × Int) → Res Bool
  | [] => .ok false
  | e :: es => do
    let t ← edgeInner dbg a b e.1 bEdges
    if t then .ok true else edgeOuter dbg a b bEdges es

/-- `convexIntersect` in 3D (`convexIntersect.hh` L173-280). -/
def convexIntersect3 (dbg : Bool) (a b : RPLC K) : Res Bool := do
  let o ← scan3 dbg a (a.points.length / 3) b.points (fun s => s == 1) a.facets
  if o then .ok false
  else
    let o ← scan3 dbg b (b.points.length / 3) a.points (fun s => s == 1) b.facets
    if o then .ok false
    else
      let aEdges ← allEdges dbg a.facets []
      let bEdges ← allEdges dbg b.facets []
      let sep ← edgeOuter dbg a b bEdges aEdges
      return !sep
end
end Verif.Geom
