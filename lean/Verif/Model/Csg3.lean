import Verif.Model.Bsp
import Verif.Model.Query
import Verif.Model.PLC
/-
Model of planes, polygons and the splitting of `/repo/src/PLC_CSG_3d.hh`. Coordinates are elements of a field with exact arithmetic; the truncation in `lerp` for integer types is
not modelled. `EPSILON` (`PLC_CSG.cc` L17-19) is the parameter `eps`.
-/
namespace Verif.Csg
open Verif Verif.Geom Verif.Mesh

/-- `Plane` (L76-94). -/
structure Plane (K : Type) where
  normal : V3 K
  w : K
  deriving DecidableEq, Repr

/-- `Polygon` (L100-114). -/
structure Poly (K : Type) where
  verts : List (V3 K)
  plane : Plane K
  deriving DecidableEq, Repr

section
variable {K : Type} [Field K] [LinearOrder K]

/-- The constructor from three points (L84-86). -/
def Plane.of (a b c : V3 K) : Plane K :=
  let normal := cross3 (b - a) (c - a)
  { normal, w := dot3 normal a }

/-- `Plane::ok` (L87). -/
def Plane.ok (p : Plane K) : Bool := decide (p.normal.x * p.normal.x + p.normal.y * p.normal.y + p.normal.z * p.normal.z > 0)

/-- `Plane::flip` (L88). -/
def Plane.flip (p : Plane K) : Plane K := { normal := ⟨-p.normal.x, -p.normal.y, -p.normal.z⟩, w := p.w * -1 }

/-- The constructor of `Polygon` (L111-113). With less than three vertices it reads past the end; it is not called like that, and here the polygon has no plane then. -/
def Poly.of (vs : List (V3 K)) : Poly K :=
  { verts := vs, plane := match vs with
      | a :: b :: c :: _ => Plane.of a b c
      | _ => { normal := 0, w := 0 } }

/-- `Polygon::flip` (L105-108). -/
def Poly.flip (p : Poly K) : Poly K := { verts := p.verts.reverse, plane := p.plane.flip }

/-- The classification of a vertex (L185-186): 0 is COPLANAR, 1 FRONT and 2 BACK. -/
def cls3 (eps t : K) : Nat := if t < -eps then 2 else if t > eps then 1 else 0

/-- `lerp` (L42-47). -/
def lerpC3 (a b : V3 K) (v : K) : V3 K := ⟨a.x + (b.x - a.x) * v, a.y + (b.y - a.y) * v, a.z + (b.z - a.z) * v⟩

/-- Where the edge from `vi` to `vj` is cut (L221-222). -/
def cut3 (p : Plane K) (vi vj : V3 K) : V3 K := lerpC3 vi vj ((p.w - dot3 p.normal vi) / dot3 p.normal (vj - vi))

/-- One turn of the loop over the edges of a spanning polygon (L214-226): what is appended to `f` and to `b`. -/
def edge3 (eps : K) (p : Plane K) (vi vj : V3 K) : List (V3 K) × List (V3 K) :=
  let ti := cls3 eps (dot3 p.normal vi - p.w)
  let tj := cls3 eps (dot3 p.normal vj - p.w)
  let v := if ti ||| tj = 3 then [cut3 p vi vj] else []
  ((if ti ≠ 2 then [vi] else []) ++ v, (if ti ≠ 1 then [vi] else []) ++ v)

/-- The edges of a polygon: each vertex with the next, the last with the first (L215-217). -/
def edges3 (vs : List (V3 K)) : List (V3 K × V3 K) := vs.zip (vs.rotate 1)

/-- `Plane::splitPolygon` (L167-232). -/
def splitPoly (eps : K) (p : Plane K) (q : Poly K) : Parts (Poly K) :=
  match q.verts.foldl (fun t v => t ||| cls3 eps (dot3 p.normal v - p.w)) 0 with
  | 0 => if dot3 p.normal q.plane.normal > 0 then { coFront := [q] } else { coBack := [q] }
  | 1 => { front := [q] }
  | 2 => { back := [q] }
  | _ =>
    let f := (edges3 q.verts).flatMap fun e => (edge3 eps p e.1 e.2).1
    let b := (edges3 q.verts).flatMap fun e => (edge3 eps p e.1 e.2).2
    { front := if f.length ≥ 3 then [Poly.of f] else [], back := if b.length ≥ 3 then [Poly.of b] else [] }

/-- The operations on polygons. -/
def polyOps (eps : K) : Ops (Poly K) (Plane K) where
  ok := Plane.ok
  flipP := Plane.flip
  flipE := Poly.flip
  plane := Poly.plane
  none := { normal := 0, w := 0 }
  split := splitPoly eps

/-- The inner loop of `ReducedPLCtoPolygons` (L399-406) over a facet: the triangles that its first vertex makes with the edges that do not contain it. -/
def facetTriangles (points : List K) (k1 : Int) : List Int → Res (List (Poly K))
  | k2 :: k3 :: ks =>
    if k1 < 0 ∨ k2 < 0 ∨ k3 < 0 then .ub
    else do
      let a ← rdV3 points k1.toNat
      let b ← rdV3 points k2.toNat
      let c ← rdV3 points k3.toNat
      let rest ← facetTriangles points k1 (k3 :: ks)
      return Poly.of [a, b, c] :: rest
  | _ => .ok []

/-- The outer loop of `ReducedPLCtoPolygons` (L395-407). A facet with less than two vertices makes the inner loop run far past the end (`n-1` is unsigned). The holes of the model are
not looked at. -/
def polygonsLoop (dbg : Bool) (points : List K) : List (List Int) → Res (List (Poly K))
  | [] => .ok []
  | f :: fs => do
    Res.assert dbg (f.length ≥ 3)
    match f with
    | [] => .ub
    | [_] => .ub
    | k1 :: ks => do
      let ts ← facetTriangles points k1 ks
      let rest ← polygonsLoop dbg points fs
      return ts ++ rest

/-- `ReducedPLCtoPolygons` (L387-409). -/
def toPolygons (dbg : Bool) (points : List K) (facets : List (List Int)) : Res (List (Poly K)) := do
  Res.assert dbg (facets.length ≥ 4)
  polygonsLoop dbg points facets

/-- The three public operations (L546-589) up to the list of polygons that is then converted to a PLC. `op` is the operation on trees. The depth of the recursion in `build` is bounded by
`n`; `none` means that the bound was reached. -/
def csg3 (op : Nat → Tree (Poly K) (Plane K) → Tree (Poly K) (Plane K) → Option (Tree (Poly K) (Plane K))) (eps : K) (n : Nat) (dbg : Bool) (a b : RPLC K) :
    Res (Option (List (Poly K))) := do
  let pa ← toPolygons dbg a.points a.facets
  let pb ← toPolygons dbg b.points b.facets
  return ((build (polyOps eps) n .nil pa).bind fun ta => (build (polyOps eps) n .nil pb).bind fun tb => op n ta tb).map all

/-- `csg_union`, `csg_subtract` and `csg_intersect` (L546-589) up to the list of polygons. -/
def csgUnion3 (eps : K) := csg3 (unionT (polyOps eps)) eps
def csgSubtract3 (eps : K) := csg3 (subtractT (polyOps eps)) eps
def csgIntersect3 (eps : K) := csg3 (intersectT (polyOps eps)) eps
end
end Verif.Csg
