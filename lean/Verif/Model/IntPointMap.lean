import Verif.Model.Cxx
import Mathlib.Data.List.Sort
/-
Model of `/repo/src/IntPointMap.hh`: a map from integer points to ids that matches points within a tolerance. The dimension is the length of `coords`;
a point is the list of its coordinates. Integers are unbounded (`p[idim] - mtol` does not overflow).
-/
namespace Verif.PointMap
open Verif

/-- `Container` (L26): pairs (coordinate, ids), kept in increasing order of the coordinate. -/
abbrev Container := List (Int × List Nat)

/-- `IntPointMap` (L27-29). -/
structure PMap where
  coords : List Container
  tol : Int
  cur : Nat

/-- Constructor (L34-37). -/
def new (D : Nat) (tol : Int) : PMap := { coords := List.replicate D [], tol := tol, cur := 0 }

/-- `std::lower_bound` with `ComparePairByFirstElement`: the position of the first entry that is not before `v`. -/
def lowerBound (c : Container) (v : Int) : Nat := (c.takeWhile fun e => decide (e.1 < v)).length

/-- `std::upper_bound`: the position of the first entry that is after `v`. -/
def upperBound (c : Container) (v : Int) : Nat := (c.takeWhile fun e => decide (e.1 ≤ v)).length

/-- The entries between two positions. -/
def range (c : Container) (lo hi : Nat) : Container := (c.take hi).drop lo

/-- L65-72 (and L99-106): add id `k` at coordinate `v`: find the place in the window, then either insert a new entry or append to the ids found there. -/
def insertID (c : Container) (lo hi : Nat) (v : Int) (k : Nat) : Container :=
  let i := lo + lowerBound (range c lo hi) v
  match c[i]? with
  | none => c ++ [(v, [k])]
  | some e => if e.1 ≠ v then c.take i ++ (v, [k]) :: c.drop i else c.take i ++ (v, e.2 ++ [k]) :: c.drop (i + 1)

/-- `lowers[idim]`, `uppers[idim]` (L49-55). -/
def bounds (c : Container) (x tol : Int) : Nat × Nat := (lowerBound c (x - tol), upperBound c (x + tol))

/-- L64-72: add a new id in every dimension. -/
def insertAll (tol : Int) (k : Nat) : List Container → List Int → List Container
  | c :: cs, x :: xs => insertID c (bounds c x tol).1 (bounds c x tol).2 x k :: insertAll tol k cs xs
  | cs, _ => cs

/-- L85-90: the sorted ids of the entries in the window. -/
def dimIDs (c : Container) (x tol : Int) : List Nat :=
  ((range c (bounds c x tol).1 (bounds c x tol).2).flatMap Prod.snd).insertionSort (· ≤ ·)

/-- `std::set_intersection` on sorted ranges. -/
def setIntersection : List Nat → List Nat → List Nat
  | [], _ => []
  | _ :: _, [] => []
  | a :: as, b :: bs =>
    if a < b then setIntersection as (b :: bs) else if b < a then setIntersection (a :: as) bs else a :: setIntersection as bs
termination_by as bs => as.length + bs.length

/-- The loop L83-113 over the dimensions after the first: the ids matching in all of them, `none` when an intersection is empty. -/
def matchLoop (tol : Int) : List Container → List Int → List Nat → Option (List Nat)
  | c :: cs, x :: xs, ids =>
    let inter := setIntersection ids (dimIDs c x tol)
    if inter.length = 0 then none else matchLoop tol cs xs inter
  | _, _, ids => some ids

/-- Is a window empty in some dimension (L48-57)? -/
def anyEmpty (tol : Int) : List Container → List Int → Bool
  | c :: cs, x :: xs => decide ((bounds c x tol).1 = (bounds c x tol).2) || anyEmpty tol cs xs
  | _, _ => false

/-- `index` (L43-126): the id of a point and the new state. -/
def index (dbg : Bool) (m : PMap) (p : List Int) : Res (Nat × PMap) :=
  let fresh : PMap := { m with coords := insertAll m.tol m.cur m.coords p, cur := m.cur + 1 }
  if anyEmpty m.tol m.coords p then .ok (m.cur, fresh)
  else
    match m.coords, p with
    | c :: cs, x :: xs =>
      match matchLoop m.tol cs xs (dimIDs c x m.tol) with
      | none => .ok (m.cur, fresh)
      | some ids => do
        Res.assert dbg (ids.length = 1)
        let j ← rd ids 0
        return (j, m)
    | _, _ => .ub

/-- The loop L147-166 of `have`: unlike in `index`, the ids of the first dimension are intersected with each other dimension separately. -/
def haveLoop (tol : Int) : List Container → List Int → List Nat → Bool
  | c :: cs, x :: xs, ids => if (setIntersection ids (dimIDs c x tol)).length = 0 then false else haveLoop tol cs xs ids
  | _, _, _ => true

/-- `have` (L131-170). -/
def «have» (m : PMap) (p : List Int) : Bool :=
  if anyEmpty m.tol m.coords p then false
  else
    match m.coords, p with
    | c :: cs, x :: xs => haveLoop m.tol cs xs (dimIDs c x m.tol)
    | _, _ => true

/-- A history of `index` calls: the ids returned, in order, and the final state. -/
def indices (dbg : Bool) : List (List Int) → PMap → Res (List Nat × PMap)
  | [], m => .ok ([], m)
  | p :: ps, m => do
    let r ← index dbg m p
    let s ← indices dbg ps r.2
    return (r.1 :: s.1, s.2)

end Verif.PointMap
