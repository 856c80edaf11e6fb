import Verif.Model.Bsp
import Verif.Model.Query
/-
Model of lines, segments and the public operations of `/repo/src/PLC_CSG_2d.hh`. Coordinates are elements of a field with exact arithmetic; `lerp` takes a `double`, and in
an instantiation with an integer `RealType` its result is truncated, which is not modelled. `EPSILON` (`PLC_CSG.cc` L12-14) is the parameter `eps`.
-/
namespace Verif.Csg
open Verif Verif.Geom Verif.Mesh

/-- `Line` (L69-78). -/
structure Line (K : Type) where
  direction : V2 K
  normal : V2 K
  w : K
  deriving DecidableEq, Repr

/-- `Segment` (L93-95): its two vertices and its line. -/
structure Seg (K : Type) where
  a : V2 K
  b : V2 K
  line : Line K
  deriving DecidableEq, Repr

section
variable {K : Type} [Field K] [LinearOrder K]

/-- The constructor from two points (L76-79). -/
def Line.of (a b : V2 K) : Line K :=
  let direction := b - a
  let normal : V2 K := ⟨direction.y, -direction.x⟩
  { direction, normal, w := dot2 normal a }

/-- `Line::ok` (L80), `length2` (L43). -/
def Line.ok (l : Line K) : Bool :=
  decide (l.normal.x * l.normal.x + l.normal.y * l.normal.y > 0) && decide (l.direction.x * l.direction.x + l.direction.y * l.direction.y > 0)

/-- `Line::flip` (L81). -/
def Line.flip (l : Line K) : Line K :=
  { direction := ⟨-l.direction.x, -l.direction.y⟩, normal := ⟨-l.normal.x, -l.normal.y⟩, w := -l.w }

/-- The constructor of `Segment` (L103-107). -/
def Seg.of (a b : V2 K) : Seg K := { a, b, line := Line.of a b }

/-- `Segment::flip` (L97-100). -/
def Seg.flip (s : Seg K) : Seg K := { a := s.b, b := s.a, line := s.line.flip }

/-- The classification of an end point (L179-180): 0 is COLLINEAR, 1 FRONT and 2 BACK. -/
def cls (eps t : K) : Nat := if t < -eps then 2 else if t > eps then 1 else 0

/-- `lerp` (L39-42). -/
def lerpC (a b : V2 K) (v : K) : V2 K := ⟨a.x + (b.x - a.x) * v, a.y + (b.y - a.y) * v⟩

/-- The vertex lists `f` and `b` of a spanning segment (L205-219). -/
def spanF (l : Line K) (s : Seg K) (ti tj : Nat) : List (V2 K) × List (V2 K) :=
  let v := lerpC s.a s.b ((l.w - dot2 l.normal s.a) / dot2 l.normal (s.b - s.a))
  let f := (if ti ≠ 2 then [s.a] else []) ++ (if tj ≠ 2 then [s.b] else []) ++ [v]
  let b := (if ti ≠ 1 then [s.a] else []) ++ (if tj ≠ 1 then [s.b] else []) ++ [v]
  (f, b)

/-- L220-221: a list of two vertices becomes a segment. -/
def twoSeg : List (V2 K) → List (Seg K)
  | [p, q] => [Seg.of p q]
  | _ => []

/-- `Line::splitSegment` (L161-225). -/
def splitSeg (eps : K) (l : Line K) (s : Seg K) : Parts (Seg K) :=
  let ti := cls eps (dot2 l.normal s.a - l.w)
  let tj := cls eps (dot2 l.normal s.b - l.w)
  match ti ||| tj with
  | 0 => if dot2 l.normal s.line.normal > 0 then { coFront := [s] } else { coBack := [s] }
  | 1 => { front := [s] }
  | 2 => { back := [s] }
  | _ =>
    let (f, b) := spanF l s ti tj
    { front := twoSeg f, back := twoSeg b }

/-- The operations on segments. -/
def segOps (eps : K) : Ops (Seg K) (Line K) where
  ok := Line.ok
  flipP := Line.flip
  flipE := Seg.flip
  plane := Seg.line
  none := { direction := 0, normal := 0, w := 0 }
  split := splitSeg eps

/-- The loop of `ReducedPLCtoSegments` (L385-391). The holes of the model are not looked at. -/
def toSegments (dbg : Bool) (points : List K) : List (List Int) → Res (List (Seg K))
  | [] => .ok []
  | f :: fs => do
    let e ← facetEnds dbg false 0 points f
    let rest ← toSegments dbg points fs
    return Seg.of e.1 e.2 :: rest

/-- `ReducedPLCfromSegments` (L400-417): two new points for each segment. -/
def fromSegments (dbg : Bool) (segs : List (Seg K)) : Res (RPLC K) := do
  Res.assert dbg (segs.length ≥ 3)
  return { points := segs.flatMap fun s => [s.a.x, s.a.y, s.b.x, s.b.y],
           facets := (List.range segs.length).map fun i : Nat => [(2 * i : Int), (2 * i + 1 : Int)] }

/-- The three public operations (L424-464). `op` is the operation on trees. The depth of the recursion in `build` is bounded by `n`; `none` means that the bound was reached. -/
def csg2 (op : Nat → Tree (Seg K) (Line K) → Tree (Seg K) (Line K) → Option (Tree (Seg K) (Line K))) (eps : K) (n : Nat) (dbg : Bool) (a b : RPLC K) :
    Res (Option (RPLC K)) := do
  let sa ← toSegments dbg a.points a.facets
  let sb ← toSegments dbg b.points b.facets
  match (build (segOps eps) n .nil sa).bind fun ta => (build (segOps eps) n .nil sb).bind fun tb => op n ta tb with
  | none => return none
  | some t => do
    let r ← fromSegments dbg (all t)
    return some r

/-- `csg_union`, `csg_subtract` and `csg_intersect` (L424-464). -/
def csgUnion (eps : K) := csg2 (unionT (segOps eps)) eps
def csgSubtract (eps : K) := csg2 (subtractT (segOps eps)) eps
def csgIntersect (eps : K) := csg2 (intersectT (segOps eps)) eps
end
end Verif.Csg
