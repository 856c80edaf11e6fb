import Verif.Model.Simplify
/-
Model of the 3D version of `simplifyPLCfacets` (`/repo/src/simplifyPLCfacets.hh` L135-355), which glues facets that share points and lie in one plane and takes the points
out of the result at which the outline does not turn. A flat array of coordinates is a list of points. The geometric tests are parameters of the parts, and those of the
library in the whole function at the end. `int` and `unsigned` are unbounded.
-/
namespace Verif.Simplify3
open Verif Verif.Mesh Verif.Internal Verif.Geom
open Verif.Simplify (Plc rdi number compact renumber)

/-- The geometric tests, on points. -/
structure Tests (V : Type) where
  /-- L186-187: the points are closer than the tolerance -/
  near : V → V → Bool
  /-- L192-193: the three points are collinear -/
  coll : V → V → V → Bool
  /-- L231-232: the normals of two facets, each given by three of its points, are parallel -/
  par : V × V × V → V × V × V → Bool
  /-- L287-297: the edge from the first point to the second and the one from the third to the fourth are not parallel -/
  turn : V → V → V → V → Bool
  /-- L304-317: the normal at the first three points and the one at the other three are opposite -/
  neg : V → V → V → V → V → V → Bool

section
variable {V : Type} (T : Tests V)

/-- The unique points of a facet: `old2new[plc.facets[i][j]]` of L169, L222-224, L236-238 and L255-256, which is a position of `nodeFacets` (L166), of length `n`. -/
def mapFacet (n : Nat) (ix : List Nat) (f : List Int) : Res (List Nat) :=
  f.mapM fun k => do
    let v ← rdi ix k
    if v < n then return v else .ub

/-- `nodeFacets[v]` after L167-175: facets are pushed in increasing order, so that sorting and removing duplicates leaves the increasing list of the facets at `v`. -/
def facetsAt (mf : List (List Nat)) (v : Nat) : List Nat := (List.range mf.length).filter fun i => v ∈ mf.getD i []

/-- L181-207: the three points that give the normal of a facet, or nothing if the facet is flagged as used because it has no area. All the entries are read at once: L169 has
read an array of the same length at all of them. -/
def facetNormal (dbg : Bool) (points : List V) (f : List Int) : Res (Option (V × V × V)) := do
  Res.assert dbg (3 ≤ f.length)
  let ps ← f.mapM (rdi points)
  match ps with
  | [] => .ub
  | p1 :: rest =>
    match rest.dropWhile (T.near p1) with
    | [] => return none
    | p2 :: rest =>
      match rest.dropWhile (T.coll p1 p2) with
      | [] => return none
      | p3 :: _ => return some (p1, p2, p3)

/-- The state of the loops L225-241: the facets in use, `oldfacets` and `nodes2check`. -/
structure Gather where
  used : List Bool
  old : List Nat
  nodes : List Nat

/-- L228-240 for one other facet `o`, for the facet `i` with normal `ni`. -/
def gatherFacet (mf : List (List Nat)) (nrm : List (Option (V × V × V))) (i : Nat) (ni : V × V × V) (s : Gather) (o : Nat) : Gather :=
  if o ≠ i ∧ s.used.getD o true = false ∧ (match nrm.getD o none with | some no => T.par ni no | none => false) = true then
    ⟨s.used.set o true, s.old ++ [o], s.nodes ++ mf.getD o []⟩
  else s

/-- L225-241 for the unique point `v`, if it is in `nodes2check`. -/
def gatherNode (mf : List (List Nat)) (nrm : List (Option (V × V × V))) (i : Nat) (ni : V × V × V) (s : Gather) (v : Nat) : Gather :=
  if v ∈ s.nodes then (facetsAt mf v).foldl (gatherFacet T mf nrm i ni) s else s

/-- L213-241: the facets to be glued to facet `i`. An iterator of a `std::set` goes through its elements in increasing order, and comes by those that are inserted while it
goes if and only if they are larger than where it is: so the `n` points are looked at one after the other. -/
def gather (mf : List (List Nat)) (nrm : List (Option (V × V × V))) (n i : Nat) (ni : V × V × V) (used : List Bool) : Gather :=
  (List.range n).foldl (gatherNode T mf nrm i ni) ⟨used.set i true, [i], mf.getD i []⟩

/-- L252-258: the hashed edges of a facet. -/
def hashedEdges (dbg : Bool) (f : List Nat) : Res (List Edge) :=
  (List.range f.length).mapM fun j => do
    let a ← rd f j
    let b ← rd f ((j + 1) % f.length)
    hashEdge dbg a b

/-- The order of the keys of `edgeCount`. -/
def edgeLe (a b : Edge) : Prop := a.1 < b.1 ∨ (a.1 = b.1 ∧ a.2 ≤ b.2)

instance : DecidableRel edgeLe := fun _ _ => inferInstanceAs (Decidable (_ ∨ _))

/-- L261-270: the edges that were walked once, in the order of the map. -/
def onceEdges (es : List Edge) : List Edge := (es.filter fun e => es.count e = 1).insertionSort edgeLe

/-- L282-299: the start of the edge after edge number `j`, if the outline turns there. -/
def corner (dbg : Bool) (pts : List V) (edges : List Edge) (order : List Int) (j : Nat) : Res (Option Int) := do
  let jo ← rd order j
  let ko ← rd order ((j + 1) % edges.length)
  let ej ← rd edges (posID jo)
  let ek ← rd edges (posID ko)
  Res.assert dbg ((if jo < 0 then ej.1 else ej.2) = (if ko < 0 then ek.2 else ek.1))
  let j1 ← rdi pts ej.1
  let j2 ← rdi pts ej.2
  let k1 ← rdi pts ek.1
  let k2 ← rdi pts ek.2
  let t := match decide (jo < 0), decide (ko < 0) with
    | false, false => T.turn j1 j2 k1 k2
    | false, true => T.turn j1 j2 k2 k1
    | true, false => T.turn j2 j1 k1 k2
    | true, true => T.turn j2 j1 k2 k1
  return if t then some (if ko < 0 then ek.2 else ek.1) else none

/-- L301-317: the new facet, turned over if its normal is opposite to that of the facet `f`. -/
def orient (dbg : Bool) (points pts : List V) (f : List Int) (new : List Int) : Res (List Int) := do
  Res.assert dbg (3 ≤ new.length)
  let a0 ← rd f 0 >>= rdi points
  let b0 ← rd f 1 >>= rdi points
  let c0 ← rd f 2 >>= rdi points
  let a1 ← rd new 0 >>= rdi pts
  let b1 ← rd new 1 >>= rdi pts
  let c1 ← rd new 2 >>= rdi pts
  return if T.neg a0 b0 c0 a1 b1 c1 then new.reverse else new

/-- L244-317: the facet that the facets `old` make together, facet `f` among them. -/
def glue (dbg : Bool) (points pts : List V) (mf : List (List Nat)) (f : List Int) (old : List Nat) : Res (List Int) := do
  let es ← old.mapM fun o => hashedEdges dbg (mf.getD o [])
  let edges := onceEdges es.flatten
  Res.assert dbg (3 ≤ edges.length)
  let (hanging, edges, order) ← computeSortedFaceEdges dbg edges
  Res.assert dbg (hanging = false)
  let new ← (List.range edges.length).mapM (corner T dbg pts edges order)
  orient T dbg points pts f (new.filterMap id)

/-- The loop L211-319 from facet `i` on. The first argument is the rest of the facets. -/
def glueLoop (dbg : Bool) (points pts : List V) (mf : List (List Nat)) (nrm : List (Option (V × V × V))) : List (List Int) → Nat → List Bool → Res (List (List Int))
  | [], _, _ => .ok []
  | f :: fs, i, used =>
    match used.getD i true, nrm.getD i none with
    | false, some ni => do
      let g := gather T mf nrm pts.length i ni used
      let new ← glue T dbg points pts mf f g.old
      let rest ← glueLoop dbg points pts mf nrm fs (i + 1) g.used
      return new :: rest
    | _, _ => glueLoop dbg points pts mf nrm fs (i + 1) used

/-- L323-328: the points in use have mask 1, the others -1. -/
def useMask (n : Nat) (facets : List (List Int)) : Res (List Int) :=
  facets.flatten.foldlM (fun mask k => if 0 ≤ k then wr mask k.toNat 1 else Res.ub) (List.replicate n (-1))

/-- L164-351: everything after the points have been made unique. -/
def simplifyWith (dbg : Bool) (facets : List (List Int)) (points pts : List V) (ix : List Nat) : Res (Plc V) := do
  let mf ← facets.mapM (mapFacet pts.length ix)
  let nrm ← facets.mapM (facetNormal T dbg points)
  let new ← glueLoop T dbg points pts mf nrm facets 0 (nrm.map Option.isNone)
  Res.assert dbg (4 ≤ new.length)
  let mask ← useMask pts.length new
  let num := number mask 0
  let pts' ← compact dbg num.1 0 pts
  let fs ← new.mapM fun f => f.mapM (renumber dbg num.1)
  return { facets := fs, points := pts'.take num.2 }
end

/-- The normal of L198-204. -/
def normal {K : Type} [Field K] (p : V3 K × V3 K × V3 K) : V3 K := cross3 (p.2.1 - p.1) (p.2.2 - p.1)

open Classical in
/-- The tests as the library makes them: `distance` (`Model/Vec`), `collinear` (`Model/Vec`), L232, L295-297 (where the signs of L293-294 make the edges run along the
outline) and L314-317. -/
noncomputable def realTests (tol : ℝ) : Tests (V3 ℝ) where
  near p q := decide (distance3 p q < tol)
  coll p q r := decide (collinear3 p q r tol)
  par m n := decide (|dot3 (normal m) (normal n) - Real.sqrt (dot3 (normal m) (normal m)) * Real.sqrt (dot3 (normal n) (normal n))| < tol)
  turn a b c d := decide (tol < Real.sqrt (dot3 (b - a) (b - a)) * Real.sqrt (dot3 (d - c) (d - c)) - |dot3 (b - a) (d - c)|)
  neg a0 b0 c0 a1 b1 c1 := decide (dot3 (cross3 (b0 - a0) (c0 - a0)) (cross3 (b1 - a1) (c1 - a1)) < 0)

/-- `simplifyPLCfacets` for `PLC<3, RealType>`. `b` is the box of `xmin` and `xmax`. -/
noncomputable def simplify3 (A : Points.Arith) (dbg : Bool) (eps tol : ℝ) (b : Hash.HBox3) (plc : PLC) (points : List (V3 ℝ)) : Res (Plc (V3 ℝ)) := do
  let u ← Hash.uniquePoints3 A dbg eps tol b points
  simplifyWith (realTests tol) dbg plc.facets points u.1 u.2
end Verif.Simplify3
