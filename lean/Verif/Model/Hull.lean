import Verif.Model.Polygon
import Mathlib.Algebra.Order.Floor.Ring
import Mathlib.Algebra.Order.Archimedean.Real.Basic
/-
Model of the convex hull in the plane: `/repo/src/convexHull_2d.hh`.
-/
namespace Verif.Geom
open Verif Verif.Mesh

/-- An element of `sortedPoints`: the quantized position and the number of the input point (L136-142). -/
abbrev Tagged := V2 Int × Nat

/-- `zcross_sign` (L46-56), whose differences and products are computed in `double`; here they are exact. -/
def zcrossSign (a b c : V2 Int) : Int :=
  let ztest := (b.x - a.x) * (c.y - a.y) - (b.y - a.y) * (c.x - a.x)
  if ztest < 0 then -1 else if ztest > 0 then 1 else 0

/-- `FuzzyPoint2LessThan` with the default fuzz 1 (L27-41). The sums can overflow `int` for coordinates of `INT_MAX`; here they do not. -/
def fuzzyLt (a b : Tagged) : Bool :=
  if a.1.x + 1 < b.1.x then true
  else if a.1.x > b.1.x + 1 then false
  else if a.1.y + 1 < b.1.y then true
  else if a.1.y > b.1.y + 1 then false
  else false

/-- Insertion into the `std::set` (L138-140) as a sorted list. A tree does the same if the comparator is a strict weak order on the points; if it is not, which
`C33_order_fails` shows can happen, what the set does is not defined. -/
def fuzzyInsert (e : Tagged) : List Tagged → List Tagged
  | [] => [e]
  | x :: xs => if fuzzyLt x e then x :: fuzzyInsert e xs else if fuzzyLt e x then e :: x :: xs else x :: xs

/-- `operator<` of `std::pair<Point2, unsigned>` (L143), with `Point2::operator<` and `==` of `Point.hh` L24-32. -/
def tagLt (a b : Tagged) : Bool :=
  let lt := fun (p q : V2 Int) => if p.x < q.x then true else if p.x = q.x ∧ p.y < q.y then true else false
  lt a.1 b.1 || (!lt b.1 a.1 && decide (a.2 < b.2))

/-- `std::sort` (L143), as insertion sort: the result is the same for any sorting algorithm as the elements are different. -/
def tagInsert (e : Tagged) : List Tagged → List Tagged
  | [] => [e]
  | x :: xs => if tagLt e x then e :: x :: xs else x :: tagInsert e xs
def tagSort : List Tagged → List Tagged
  | [] => []
  | e :: es => tagInsert e (tagSort es)

/-- The inner `while` of the two loops (L158-159, L165-166): the stack `result[0..k)` is a list with the top first, and holds the points rather than their numbers in
`sortedPoints`. At least `t - 1` points stay. -/
def chainPop (t : Nat) (p : Tagged) : List Tagged → List Tagged
  | b :: a :: r => if t ≤ r.length + 2 ∧ zcrossSign a.1 b.1 p.1 ≤ 0 then chainPop t p (a :: r) else b :: a :: r
  | s => s

/-- One of the two loops (L157-161, L164-168). -/
def chain (t : Nat) : List Tagged → List Tagged → List Tagged
  | [], s => s
  | p :: ps, s => chain t ps (p :: chainPop t p s)

/-- Both loops: `result[0..k)`, bottom first (L153-168). -/
def hullLoop (sorted : List Tagged) : List Tagged :=
  let lower := chain 2 sorted []
  (chain (lower.length + 1) sorted.dropLast.reverse lower).reverse

/-- The facets (L180-185): `j` never wraps around. -/
def hullFacets (result : List Tagged) : List (List Int) :=
  List.zipWith (fun a b => [(a.2 : Int), (b.2 : Int)]) result result.tail

/-- Conversion of a floating point value to `int` (L138-139): truncation, undefined out of range. -/
noncomputable def toInt (t : ℝ) : Res Int :=
  let r := if 0 ≤ t then ⌊t⌋ else ⌈t⌉
  if -2147483648 ≤ r ∧ r ≤ 2147483647 then .ok r else .ub

/-- The loop that hashes the points (L137-141), from point `i` on. -/
noncomputable def hashPoints (low : V2 ℝ) (dx : ℝ) : List (V2 ℝ) → Nat → List Tagged → Res (List Tagged)
  | [], _, set => .ok set
  | p :: ps, i, set => do
    let x ← toInt ((p.x - low.x) / dx + 1 / 2)
    let y ← toInt ((p.y - low.y) / dx + 1 / 2)
    hashPoints low dx ps (i + 1) (fuzzyInsert (⟨x, y⟩, i) set)

open Classical in
/-- The search for a point distinct from the first (L106-107), from point `j` on: its number, or `n`. -/
noncomputable def firstFar (p0 : V2 ℝ) (dx : ℝ) : List (V2 ℝ) → Nat → Nat
  | [], j => j
  | p :: ps, j => if distance2 p0 p < dx then firstFar p0 dx ps (j + 1) else j

open Classical in
/-- `convexHull_2d` (L81-189). The points are a list of pairs rather than a flat array. The assertion on `result.back()` (L177) looks at the last element of the array of
`2*nunique`, which is never written, and is always true. -/
noncomputable def convexHull2 (dbg : Bool) (points : List (V2 ℝ)) (low : V2 ℝ) (dx : ℝ) : Res PLC := do
  Res.assert dbg (points ≠ [])
  let n := points.length
  match points with
  | [] => .ub
  | [_] => .ok ⟨[[0, 0]], []⟩
  | [_, _] => .ok ⟨[[0, 1]], []⟩
  | p0 :: p1 :: rest =>
    let j := firstFar p0 dx (p1 :: rest) 1
    if j = n - 1 then .ok ⟨[[0, (j : Int)]], []⟩
    else if j = n then .ok ⟨[[0, 0]], []⟩
    else
      let pj := points.getD j p0
      let set ← hashPoints low dx points 0 []
      let sorted := tagSort set
      if ∀ p ∈ rest, collinear2 p0 pj p dx then
        match sorted.head?, sorted.getLast? with
        | some a, some b => .ok ⟨[[(a.2 : Int), (b.2 : Int)]], []⟩
        | _, _ => .ub
      else do
        let result := hullLoop sorted
        Res.assert dbg (4 ≤ result.length)
        return ⟨hullFacets result, []⟩
end Verif.Geom
