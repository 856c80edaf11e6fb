import Verif.Model.PLC
/-
Model of `/repo/src/PLC_Boost_2d.hh`: union, intersection, difference and clipping of 2D PLCs by way of the polygons of Boost.Geometry. The library itself
is not modelled: its functions are the fields of `Lib`, which may be any functions. `RealType` is any type with decidable equality. The order in which C++
evaluates the two arguments of a call is taken from left to right.
-/
namespace Verif.BoostGeo
open Verif Verif.Geom

/-- `boost::geometry::model::polygon<Point2<RealType>, false>`: a ring of points, the first of them repeated at the end, and the rings of the holes. -/
structure Polygon (K : Type) where
  outer : List (K × K) := []
  inners : List (List (K × K)) := []
  deriving DecidableEq

/-- The functions of Boost.Geometry that the file calls. -/
structure Lib (K : Type) where
  correct : Polygon K → Polygon K
  unique : Polygon K → Polygon K
  union : Polygon K → Polygon K → List (Polygon K)
  intersection : Polygon K → Polygon K → List (Polygon K)
  difference : Polygon K → Polygon K → List (Polygon K)
  unionMulti : List (Polygon K) → Polygon K → List (Polygon K)
  correctMulti : List (Polygon K) → List (Polygon K)
  selfIntersects : Polygon K → Bool
  intersects : Polygon K → Polygon K → Bool
  coveredBy : K × K → Polygon K → Bool
  within : K × K → Polygon K → Bool

variable {K : Type} [DecidableEq K]

/-- `PointType(points[2*i], points[2*i+1])` (L52). -/
def point (points : List K) (i : Int) : Res (K × K) :=
  if 0 ≤ i then do
    let x ← rd points (2 * i.toNat)
    let y ← rd points (2 * i.toNat + 1)
    return (x, y)
  else .ub

/-- The loop over the facets of a ring (L53-58, L69-74): the second end of each. -/
def ringLoop (dbg : Bool) (points : List K) : List (List Int) → Res (List (K × K))
  | [] => .ok []
  | f :: fs => do
    Res.assert dbg (f.length = 2)
    let i ← rd f 1
    let p ← point points i
    let rest ← ringLoop dbg points fs
    return p :: rest

/-- One ring of `ReducedPLCtoPolygon` (L50-60 and L65-76). -/
def ring (dbg : Bool) (points : List K) (facets : List (List Int)) : Res (List (K × K)) := do
  let f0 ← rd facets 0
  let i ← rd f0 0
  let p ← point points i
  let rest ← ringLoop dbg points facets
  Res.assert dbg ((p :: rest).length = facets.length + 1)
  Res.assert dbg ((p :: rest).head? = (p :: rest).getLast?)
  return p :: rest

/-- `ReducedPLCtoPolygon` (L44-81). -/
def toPolygon (lib : Lib K) (dbg : Bool) (model : RPLC K) : Res (Polygon K) := do
  let outer ← ring dbg model.points model.facets
  let inners ← model.holes.mapM (ring dbg model.points)
  Res.assert dbg (inners.length = model.holes.length)
  return lib.correct { outer, inners }

/-- The points of a ring that is read up to `end() - 1` (L100-103, L117-122); `end() - 1` of an empty vector is undefined. -/
def ringPoints (r : List (K × K)) : Res (List (K × K)) := if r = [] then .ub else .ok r.dropLast

/-- Facet `ii` of the outer ring (L98, L104-105). -/
def outerFacet (n ii : Nat) : List Int := ([0, 0].set 0 (ii : Int)).set 1 (((ii + 1) % n : Nat) : Int)

/-- Facet `ii` of a hole (L116, L123-124): both assignments are to element 0. -/
def holeFacet (offset n ii : Nat) : List Int := ([0, 0].set 0 ((offset + ii : Nat) : Int)).set 0 ((offset + (ii + 1) % n : Nat) : Int)

/-- The loop over the holes (L113-128): their points and facets. -/
def fromHoles (dbg : Bool) : Nat → List (List (K × K)) → Res (List (K × K) × List (List (List Int)))
  | _, [] => .ok ([], [])
  | offset, r :: rs => do
    let ps ← ringPoints r
    let n := ps.length
    Res.assert dbg ((n : Int) = n - 1)
    let rest ← fromHoles dbg (offset + n) rs
    return (ps ++ rest.1, (List.range n).map (holeFacet offset n) :: rest.2)

/-- The flat coordinate array of points. -/
def flat (ps : List (K × K)) : List K := ps.flatMap fun p => [p.1, p.2]

/-- `ReducedPLCfromPolygon` (L85-130). -/
def fromPolygon (dbg : Bool) (g : Polygon K) : Res (RPLC K) := do
  let ps ← ringPoints g.outer
  let n := ps.length
  Res.assert dbg (n ≥ 3)
  let hs ← fromHoles dbg n g.inners
  return { facets := (List.range n).map (outerFacet n), holes := hs.2, points := flat (ps ++ hs.1) }

/-- The loop over the results (L177-181, L196-200, L215-219, L311-315). In a release build the ends of the ring are not read. -/
def fromResults (lib : Lib K) (dbg : Bool) : List (Polygon K) → Res (List (RPLC K))
  | [] => .ok []
  | g :: gs => do
    if dbg = true ∧ g.outer = [] then .ub
    Res.assert dbg (g.outer.head? = g.outer.getLast?)
    Res.assert dbg (lib.selfIntersects g = false)
    let P ← fromPolygon dbg g
    let rest ← fromResults lib dbg gs
    return P :: rest

/-- The common body of `boost_union`, `boost_intersect` and `boost_subtract` (L168-222). -/
def boolean (lib : Lib K) (op : Polygon K → Polygon K → List (Polygon K)) (dbg : Bool) (a b : RPLC K) : Res (List (RPLC K)) := do
  let A ← toPolygon lib dbg a
  let B ← toPolygon lib dbg b
  Res.assert dbg (op A B ≠ [])
  fromResults lib dbg (op A B)

/-- `boost_union` (L168-183). -/
def boostUnion (lib : Lib K) (dbg : Bool) (a b : RPLC K) : Res (List (RPLC K)) := boolean lib lib.union dbg a b

/-- `boost_intersect` (L187-202). -/
def boostIntersect (lib : Lib K) (dbg : Bool) (a b : RPLC K) : Res (List (RPLC K)) := boolean lib lib.intersection dbg a b

/-- `boost_subtract` (L206-221). -/
def boostSubtract (lib : Lib K) (dbg : Bool) (a b : RPLC K) : Res (List (RPLC K)) := boolean lib lib.difference dbg a b

/-- The loop of `boost_clip` (L247-260): the index of the last piece that covers the point or has it as a corner, and the other pieces. -/
def clipLoop (lib : Lib K) (dbg : Bool) (p : K × K) : List (Polygon K) → Nat → Nat → List (RPLC K) → Res (Nat × List (RPLC K))
  | [], _, k, orphans => .ok (k, orphans)
  | g :: gs, j, k, orphans =>
    if lib.coveredBy p g then clipLoop lib dbg p gs (j + 1) j orphans
    else do
      let ps ← ringPoints g.outer
      if p ∈ ps then clipLoop lib dbg p gs (j + 1) j orphans
      else do
        let P ← fromPolygon dbg g
        clipLoop lib dbg p gs (j + 1) k (orphans ++ [P])

/-- The choice of a piece (L240-263): the only one, or that of `clipLoop`. -/
def choosePiece (lib : Lib K) (dbg : Bool) (p : K × K) (pieces : List (Polygon K)) (orphans : List (RPLC K)) : Res (Polygon K × List (RPLC K)) :=
  if pieces.length = 1 then do
    let g ← rd pieces 0
    return (g, orphans)
  else do
    let r ← clipLoop lib dbg p pieces 0 pieces.length orphans
    Res.assert dbg (r.1 < pieces.length)
    let g ← rd pieces r.1
    return (g, r.2)

/-- `boost_clip` (L225-269): the result and the new value of `orphans`. -/
def boostClip (lib : Lib K) (dbg : Bool) (a b : RPLC K) (p : K × K) (orphans : List (RPLC K)) : Res (RPLC K × List (RPLC K)) := do
  let A ← toPolygon lib dbg a
  let B ← toPolygon lib dbg b
  Res.assert dbg ((lib.intersection A B).length > 0)
  let r ← choosePiece lib dbg p (lib.intersection A B) orphans
  let P ← fromPolygon dbg (lib.unique (lib.correct r.1))
  return (P, r.2)

/-- `boost_within` (L272-277). -/
def boostWithin (lib : Lib K) (dbg : Bool) (p : K × K) (a : RPLC K) : Res Bool := do
  let A ← toPolygon lib dbg a
  return lib.within p A

/-- `boost_intersects` of two PLCs (L280-285). -/
def boostIntersects (lib : Lib K) (dbg : Bool) (a b : RPLC K) : Res Bool := do
  let A ← toPolygon lib dbg a
  let B ← toPolygon lib dbg b
  return lib.intersects A B

/-- `boost_intersects` of a PLC with itself (L288-292). -/
def boostSelfIntersects (lib : Lib K) (dbg : Bool) (a : RPLC K) : Res Bool := do
  let A ← toPolygon lib dbg a
  return lib.selfIntersects A

/-- The loop of `boost_unionReduce` (L302-307). -/
def reduceLoop (lib : Lib K) (dbg : Bool) : List (Polygon K) → List (RPLC K) → Res (List (Polygon K))
  | acc, [] => .ok acc
  | acc, a :: as => do
    let A ← toPolygon lib dbg a
    reduceLoop lib dbg (lib.correctMulti (lib.unionMulti acc A)) as

/-- `boost_unionReduce` (L295-319). -/
def boostUnionReduce (lib : Lib K) (dbg : Bool) (as : List (RPLC K)) : Res (List (RPLC K)) := do
  let gs ← reduceLoop lib dbg [] as
  Res.assert dbg (gs ≠ [])
  Res.assert dbg (gs.length ≤ as.length)
  let result ← fromResults lib dbg gs
  Res.assert dbg (result ≠ [])
  Res.assert dbg (result.length ≤ as.length)
  return result

end Verif.BoostGeo
