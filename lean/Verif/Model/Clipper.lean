import Verif.Model.Cxx
/-
Model of `Clipper2d` (`/repo/src/Clipper2d.hh`), the class that clips one cell by a boundary polygon.

A ring is the list of its points; points are compared with `==`, which looks at the coordinates alone. What Boost.Geometry
answers about rings is a parameter, since Boost is not modelled. Messages to `cerr` are left out.
-/
namespace Verif.Clipper
open Verif

/-- The calls of Boost.Geometry in `Clipper2d.hh`, with `mBoundary` fixed. -/
structure Boost (P : Type) where
  /-- `intersects(cellRing, mBoundary)` (L57) -/
  intersects : List P → Bool
  /-- `intersection(mBoundary, cellRing, cellIntersections)` (L59) -/
  intersection : List P → List (List P)
  /-- `covered_by(point, ring)` (L76) -/
  coveredBy : P → List P → Bool
  /-- `correct(ring)` (L116, L139-140) -/
  correct : List P → List P
  /-- `intersects(ring)`: the ring meets itself (L122, L179) -/
  selfIntersects : List P → Bool
  /-- `within(point, mBoundary)` (L145, L153) -/
  within : P → Bool

variable {P : Type} [DecidableEq P] (B : Boost P)

/-- The loop L74-86 from piece `j` on. State: `k` and the orphans. -/
def choose (gen : P) : Nat → List (List P) → Nat × List (List P) → Nat × List (List P)
  | _, [], s => s
  | j, r :: rs, (k, orphans) =>
    if B.coveredBy gen r then choose gen (j + 1) rs (j, orphans)
    else if gen ∈ r then choose gen (j + 1) rs (j, orphans)
    else choose gen (j + 1) rs (k, orphans ++ [r])

/-- L57-90: the cell after the intersection, and the orphans. -/
def cut (dbg : Bool) (gen : P) (ring : List P) (orphans : List (List P)) : Res (List P × List (List P)) :=
  if B.intersects ring then do
    let pieces := B.intersection ring
    Res.assert dbg (pieces.length > 0)
    match pieces with
    | [p] => return (p, orphans)
    | _ => do
      let s := choose B gen 0 pieces (pieces.length, orphans)
      Res.assert dbg (s.1 < pieces.length)
      let p ← rd pieces s.1
      return (p, s.2)
  else return (ring, orphans)

/-- The loop L130-135 from `index` on, over all points but the last: `repeatedIndex`. -/
def repeated (first : P) : Nat → List P → Int → Int
  | _, [], r => r
  | index, x :: xs, r => repeated first (index + 1) xs (if x = first then (index : Int) else r)

/-- L122-178: one of the two loops of a ring that meets itself. The loop up to `end()-1` over a ring without points does not end. -/
def mend (dbg : Bool) (ring : List P) : Res (List P) :=
  match ring with
  | [] => .ub
  | x :: _ => do
    let i := repeated x 0 ring.dropLast (-1)
    Res.assert dbg (i ≠ -1)
    if i < 0 then Res.ub else do
      let ring1 := B.correct (ring.take i.toNat)
      let ring2 := B.correct (ring.drop i.toNat)
      if ring1.any B.within then return ring1
      else do
        Res.assert dbg (ring2.any B.within)
        return ring2

/-- `clipCell` (L51-180): the new `cellRing` and `orphans`. -/
def clipCell (dbg : Bool) (gen : P) (ring : List P) (orphans : List (List P)) : Res (List P × List (List P)) := do
  let s ← cut B dbg gen ring orphans
  let cell := B.correct s.1
  Res.assert dbg (cell.length > 2)
  let cell ← if B.selfIntersects cell then mend B dbg cell else .ok cell
  Res.assert dbg (B.selfIntersects cell = false)
  return (cell, s.2)
end Verif.Clipper
