import Verif.Model.Vec
/-
Model of the class `Polygon` (`/repo/src/Polygon.hh`). `m_vertices`, with two coordinates per vertex, is a list of points `vs`, so that `numVertices()` is its length
and `m_vertices.size()` twice its length; the constructors assert that the number of coordinates is even. Element `2*i` and `2*i+1` are point `i`, and `i` beyond the end is out of bounds.
Arithmetic is exact. `FLT_MAX` is a parameter `big` where a comparison with it could matter.
-/
namespace Verif.Poly
open Verif Verif.Geom

/-- `PointLocation` (L46-47). -/
inductive Loc | inside | onVertex | onEdge | outside
  deriving DecidableEq, Repr

section
variable {K : Type} [Field K] [LinearOrder K]

/-- The constructors (L17-33): the vertices, if there are at least three. -/
def new (dbg : Bool) (vs : List (V2 K)) : Res (List (V2 K)) := do
  Res.assert dbg (3 ≤ vs.length)
  return vs

/-- Where the line through `a` and `b` meets the x axis (L85). -/
def axis (a b : V2 K) : K := (a.x * b.y - b.x * a.y) / (b.y - a.y)

/-- Whether the side from `b` to `a` (relative to the query point) counts as a crossing to the right (L79, L87). -/
def rightCross (a b : V2 K) : Bool := (decide (a.y > 0) != decide (b.y > 0)) && decide (axis a b > 0)

/-- Whether it counts as a crossing to the left (L80, L89). -/
def leftCross (a b : V2 K) : Bool := (decide (a.y < 0) != decide (b.y < 0)) && decide (axis a b < 0)

/-- The loop of `queryPoint` (L63-103) from vertex `i` on; `v1` is the vertex before it. -/
def queryLoop (p : V2 K) : V2 K → List (V2 K) → Nat → Nat → Loc
  | _, [], R, L => if R % 2 ≠ L % 2 then .onEdge else if R % 2 = 1 then .inside else .outside
  | v1, v :: vs, R, L =>
    if (v - p).x = 0 ∧ (v - p).y = 0 then .onVertex
    else queryLoop p v vs (R + if rightCross (v - p) (v1 - p) then 1 else 0) (L + if leftCross (v - p) (v1 - p) then 1 else 0)

/-- `queryPoint` (L52-104). Vertex `(i+N-1) % N` is the one before `i`, for the first the last. -/
def queryPoint (vs : List (V2 K)) (p : V2 K) : Loc := if vs = [] then .outside else queryLoop p (vs.getLastD 0) vs 0 0

/-- `project` to an edge (L137-167). The degenerate case does not return, and `l2` has `v2y-v2y` for `v2y-v1y`. A division by zero gives zero here; the theorems say where it matters. -/
def projectEdge (dbg : Bool) (vs : List (V2 K)) (p : V2 K) (edge : Int) : Res (V2 K) := do
  Res.assert dbg (0 ≤ edge)
  Res.assert dbg (edge < vs.length)
  if edge < 0 then .ub
  else
    let v1 ← rd vs edge.toNat
    let v2 ← rd vs (edge.toNat + 1)
    let l2 := (v2.x - v1.x) * (v2.x - v1.x) + (v2.y - v2.y) * (v2.y - v2.y)
    let t := ((p.x - v1.x) * (v2.x - v1.x) + (p.y - v1.y) * (v2.y - v1.y)) / l2
    let t' := if t < 0 then 0 else if t > 1 then 1 else t
    return ⟨v1.x + t' * (v2.x - v1.x), v1.y + t' * (v2.y - v1.y)⟩

/-- The loop of `closestIntersection` (L215-236) from edge `i` on: the smallest parameter so far, the edge and the point. -/
def closestLoop (vs : List (V2 K)) (s1 s2 : V2 K) (big : K) : List Nat → Option (K × Nat × V2 K) → Res (Option (K × Nat × V2 K))
  | [], best => .ok best
  | i :: is, best => do
    let j := (i + 1) % vs.length
    let vi ← rd vs i
    let vj ← rd vs j
    let sx := s2.x - s1.x
    let sy := s2.y - s1.y
    let ex := vj.x - vi.x
    let ey := vj.y - vi.y
    let esx := s1.x - vi.x
    let esy := s1.y - vi.y
    let thpt := ey * sx - ex * sy
    if thpt ≠ 0 then
      let phia := (ex * esy - ey * esx) / thpt
      let phib := (sx * esy - sy * esx) / thpt
      let minPhi := match best with
        | none => big
        | some (m, _) => m
      if phia ≥ 0 ∧ phia ≤ 1 ∧ phib ≥ 0 ∧ phib ≤ 1 ∧ phia < minPhi then
        closestLoop vs s1 s2 big is (some (phia, i, ⟨s1.x + phia * sx, s1.y + phia * sy⟩))
      else closestLoop vs s1 s2 big is best
    else closestLoop vs s1 s2 big is best

/-- `closestIntersection` (L207-238): the edge and the point, or nothing for the result -1, which leaves the output argument as it was. -/
def closestIntersection (vs : List (V2 K)) (s1 s2 : V2 K) (big : K) : Res (Option (Nat × V2 K)) := do
  let r ← closestLoop vs s1 s2 big (List.range vs.length) none
  return r.map fun t => t.2
end

/-- The middle of an edge, as read by `distanceToEdge` (L194-196) and `nearestEdgePosition` (L129-131). The second end is taken modulo the number of coordinates, not of vertices. -/
noncomputable def middle (vs : List (V2 ℝ)) (i0 : Nat) : Res (V2 ℝ) := do
  let i1 := (i0 + 1) % (2 * vs.length)
  let a ← rd vs i0
  let b ← rd vs i1
  return ⟨1 / 2 * (a.x + b.x), 1 / 2 * (a.y + b.y)⟩

/-- `distanceToEdge` (L191-201). -/
noncomputable def distanceToEdge (vs : List (V2 ℝ)) (p : V2 ℝ) (i0 : Nat) : Res ℝ := do
  let m ← middle vs i0
  return Real.sqrt ((p.x - m.x) * (p.x - m.x) + (p.y - m.y) * (p.y - m.y))

open Classical in
/-- The loop of `nearestEdge` (L112-120). -/
noncomputable def nearestLoop (vs : List (V2 ℝ)) (p : V2 ℝ) : List Nat → ℝ → Int → Res Int
  | [], _, edge => .ok edge
  | e :: es, minDist, edge => do
    let d ← distanceToEdge vs p e
    if d < minDist then nearestLoop vs p es d e else nearestLoop vs p es minDist edge

/-- `nearestEdge` (L108-122). -/
noncomputable def nearestEdge (vs : List (V2 ℝ)) (p : V2 ℝ) (big : ℝ) : Res Int := nearestLoop vs p (List.range vs.length) big (-1)

/-- `nearestEdgePosition` (L125-132). -/
noncomputable def nearestEdgePosition (vs : List (V2 ℝ)) (p : V2 ℝ) (big : ℝ) : Res (V2 ℝ) := do
  let i0 ← nearestEdge vs p big
  if i0 < 0 then .ub else middle vs i0.toNat

open Classical in
/-- The loop of `project` to the nearest edge (L173-185). -/
noncomputable def projectLoop (dbg : Bool) (vs : List (V2 ℝ)) (p : V2 ℝ) : List Nat → ℝ → V2 ℝ → Res (V2 ℝ)
  | [], _, out => .ok out
  | e :: es, minDist, out => do
    let q ← projectEdge dbg vs p e
    let d := Real.sqrt ((p.x - q.x) * (p.x - q.x) + (p.y - q.y) * (p.y - q.y))
    if d < minDist then projectLoop dbg vs p es d q else projectLoop dbg vs p es minDist out

/-- `project` to the nearest edge (L170-186); `out` is what the output argument held before. -/
noncomputable def project (dbg : Bool) (vs : List (V2 ℝ)) (p : V2 ℝ) (big : ℝ) (out : V2 ℝ) : Res (V2 ℝ) := projectLoop dbg vs p (List.range vs.length) big out
end Verif.Poly
