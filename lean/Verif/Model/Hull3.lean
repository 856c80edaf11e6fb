import Verif.Model.Hash
import Verif.Model.Box
import Verif.Model.Std
import Mathlib.Data.Prod.Lex
/-
Model of `convexHull_3d`, `/repo/src/convexHull_3d.hh`. Points are a list of vectors rather than a flat array. Subscripts into the list of unique points are positions that were found in that list,
so that `point` needs no case for others. `unsigned` numbers of points do not overflow.
-/
namespace Verif.Hull3
open Verif Verif.Geom Verif.Mesh

/-- The numerical constants and functions used: `sqrt`, the lower bound `1.0e-100` of a length (`polytope_geometric_utilities.hh` L342) and the tolerance `1.0e-8` of `compare`
(`convexHull_3d.hh` L165). -/
structure Num (K : Type) where
  sqrt : K → K
  tiny : K
  tol : K

/-- `TriangleFacet` (L139-141). -/
structure Tri (K : Type) where
  i : Nat
  j : Nat
  k : Nat
  n : V3 K

variable {K : Type} [Field K] [LinearOrder K]

/-- `unitVector<3>` (`polytope_geometric_utilities.hh` L340-346). -/
def unit (c : Num K) (a : V3 K) : V3 K := a.div (max c.tiny (c.sqrt (a.x * a.x + a.y * a.y + a.z * a.z)))

/-- `ps[i]`. -/
def point (ps : List (V3 K)) (i : Nat) : V3 K := ps.getD i 0

/-- `pointLineDistance` (L31-38). -/
def lineDistance (c : Num K) (p line0 dir : V3 K) : K :=
  let delta := p - line0
  let a := dot3 delta dir
  let c2 := dot3 delta delta
  c.sqrt |c2 - a * a|

/-- `pointPlaneDistance` (L49-54). -/
def planeDistance (p plane0 n : V3 K) : K := dot3 (p - plane0) n

/-- `TriangleFacet` with `computeNormal` (L144-158). -/
def mkTri (c : Num K) (ps : List (V3 K)) (i j k : Nat) : Tri K :=
  ⟨i, j, k, unit c (cross3 (point ps j - point ps i) (point ps k - point ps i))⟩

/-- `compare` (L160-168). -/
def Tri.compare (c : Num K) (ps : List (V3 K)) (t : Tri K) (x : V3 K) : Int :=
  let test := dot3 (x - point ps t.i) t.n
  if |test| < c.tol then 0 else if test < 0 then -1 else 1

/-- `flip` (L170). -/
def Tri.flip (t : Tri K) : Tri K := ⟨t.j, t.i, t.k, ⟨t.n.x * -1, t.n.y * -1, t.n.z * -1⟩⟩

/-- `exteriorPoints` (L185-202). -/
def exteriorPoints (c : Num K) (ps : List (V3 K)) (facets : List (Tri K)) (indices : List Nat) : List Nat :=
  indices.filter fun i => facets.any fun f => f.compare c ps (point ps i) = 1

/-- `highestPoint` (L207-229). Without the assertion `unsigned(-1)` would be returned and used as a subscript. -/
def highestPoint (dbg : Bool) (ps : List (V3 K)) (facets : List (Tri K)) (indices : List Nat) : Res Nat :=
  let best := indices.foldl (fun s i => facets.foldl (fun (s : Option Nat × K) f =>
    let altitude := planeDistance (point ps i) (point ps f.i) f.n
    if s.2 < altitude then (some i, altitude) else s) s) (none, 0)
  match best.1 with
  | some i => .ok i
  | none => if dbg then .abort else .ub

/-- `internal::hashEdge` (`polytope_internal.hh` L127-134) of two numbers of points. -/
def hashEdge (dbg : Bool) (i j : Nat) : Res (Nat × Nat) := do
  Res.assert dbg (i ≠ j)
  return if i < j then (i, j) else (j, i)

/-- The edges of a visible facet (L258-260). -/
def facetEdges (dbg : Bool) (t : Tri K) : Res (List (Nat × Nat)) := do
  let a ← hashEdge dbg t.i t.j
  let b ← hashEdge dbg t.j t.k
  let d ← hashEdge dbg t.k t.i
  return [a, b, d]

/-- `cullVisibleFacets` (L236-279): the horizon edges and the facets that are left. The counters are a `std::map`, which is walked in the order of its keys. -/
def cullVisibleFacets (c : Num K) (dbg : Bool) (ps : List (V3 K)) (facets : List (Tri K)) (apex : Nat) : Res (List (Nat × Nat) × List (Tri K)) := do
  let es ← (facets.filter fun f => f.compare c ps (point ps apex) = 1).mapM (facetEdges dbg)
  let es := es.flatten
  let keys := (setAddAll [] (es.map toLex)).map ofLex
  Res.assert dbg (∀ e ∈ keys, es.count e = 1 ∨ es.count e = 2)
  return (keys.filter fun e => es.count e = 1, facets.filter fun f => ¬ f.compare c ps (point ps apex) = 1)

/-- The facets from the horizon to the apex (L385-398). -/
def newFacets (c : Num K) (ps : List (V3 K)) (apex : Nat) (horizon : List (Nat × Nat)) : List (Tri K) :=
  let test := (horizon.foldl (fun s e => s + point ps e.1 + point ps e.2) 0).div (2 * (horizon.length : K))
  horizon.map fun e =>
    let t := mkTri c ps e.1 e.2 apex
    if t.compare c ps test = 1 then t.flip else t

/-- The loop L373-415. The first argument bounds the number of iterations; it is never used up (`hullLoop_defined`). -/
def hullLoop (c : Num K) (dbg : Bool) (ps : List (V3 K)) : Nat → List (Tri K) → List Nat → Res (List (Tri K))
  | _, facets, [] => .ok facets
  | 0, _, _ :: _ => .ub
  | fuel + 1, facets, i :: is => do
    let apex ← highestPoint dbg ps facets (i :: is)
    let r ← cullVisibleFacets c dbg ps facets apex
    Res.assert dbg (3 ≤ r.1.length)
    let facets := r.2 ++ newFacets c ps apex r.1
    let remaining := exteriorPoints c ps facets (i :: is)
    Res.assert dbg (remaining.length < (i :: is).length)
    hullLoop c dbg ps fuel facets remaining

/-- `std::min_element` and `std::max_element` on a list of `n` elements: the first one that no other one beats. -/
def pick (n : Nat) (beats : Nat → Nat → Bool) : Nat := (List.range n).foldl (fun b i => if beats i b then i else b) 0

/-- The choice of two points of the starting facet (L311-342). -/
def firstEdge (dbg : Bool) (ps : List (V3 K)) : Res (Nat × Nat) := do
  let n := ps.length
  let ixmin := pick n fun a b => (point ps a).x < (point ps b).x
  let ixmax := pick n fun a b => (point ps b).x < (point ps a).x
  let iymin := pick n fun a b => (point ps a).y < (point ps b).y
  let iymax := pick n fun a b => (point ps b).y < (point ps a).y
  let izmin := pick n fun a b => (point ps a).z < (point ps b).z
  let izmax := pick n fun a b => (point ps b).z < (point ps a).z
  Res.assert dbg (ixmin ≠ ixmax ∧ iymin ≠ iymax ∧ izmin ≠ izmax)
  let boxx := point ps ixmax - point ps ixmin
  let boxy := point ps iymax - point ps iymin
  let boxz := point ps izmax - point ps izmin
  let boxx2 := dot3 boxx boxx
  let boxy2 := dot3 boxy boxy
  let boxz2 := dot3 boxz boxz
  Res.assert dbg (0 < boxx2 ∧ 0 < boxy2 ∧ 0 < boxz2)
  if max boxy2 boxz2 ≤ boxx2 then return (ixmin, ixmax)
  else if boxz2 ≤ boxy2 then return (iymin, iymax)
  else
    Res.assert dbg (max boxx2 boxy2 ≤ boxz2)
    return (izmin, izmax)

/-- The starting tetrahedron (L344-365). -/
def startFacets (c : Num K) (ps : List (V3 K)) (e : Nat × Nat) : List (Tri K) :=
  let n := ps.length
  let dir := unit c (point ps e.2 - point ps e.1)
  let k := pick n fun a b => lineDistance c (point ps b) (point ps e.1) dir < lineDistance c (point ps a) (point ps e.1) dir
  let t := mkTri c ps e.1 e.2 k
  let apex := pick n fun a b => |planeDistance (point ps b) (point ps t.i) t.n| < |planeDistance (point ps a) (point ps t.i) t.n|
  let t := if t.compare c ps (point ps apex) = 1 then t.flip else t
  [t, mkTri c ps t.j t.i apex, mkTri c ps t.i t.k apex, mkTri c ps t.k t.j apex]

/-- `convexHull_3d` from the unique points on (L301-415). Of an empty list `std::min_element` returns the end. -/
def hullFacets (c : Num K) (dbg : Bool) (ps : List (V3 K)) : Res (List (Tri K)) := do
  Res.assert dbg (4 ≤ ps.length)
  if ps = [] then .ub
  else
    let e ← firstEdge dbg ps
    let facets := startFacets c ps e
    let remaining := exteriorPoints c ps facets (List.range ps.length)
    hullLoop c dbg ps remaining.length facets remaining

/-- The output of the facets (L418-428). -/
def outFacet (pointMap : List Nat) (t : Tri K) : Res (List Int) := do
  let i ← rd pointMap t.i
  let j ← rd pointMap t.j
  let k ← rd pointMap t.k
  return [(i : Int), (j : Int), (k : Int)]

/-- The coordinates of a list of points, one after the other. -/
def flat3 (ps : List (V3 K)) : List K := ps.flatMap fun p => [p.x, p.y, p.z]

/-- The constants of the program. -/
noncomputable def realNum : Num ℝ := ⟨Real.sqrt, 1 / 10 ^ 100, 1 / 10 ^ 8⟩

/-- `convexHull_3d` (L284-432), whose argument `low` is not used. `procs` are the points of all the processes, which share the bounding box, and `points` those of this one. `big` is the largest
number, `eps` the machine precision. -/
noncomputable def convexHull3 (A : Points.Arith) (dbg : Bool) (big eps dx : ℝ) (procs : List (List (V3 ℝ))) (points : List (V3 ℝ)) : Res PLC := do
  let box ← globalBox dbg big 3 (procs.map flat3)
  let bx ← rd box 0
  let by' ← rd box 1
  let bz ← rd box 2
  let u ← Hash.uniquePoints3 A dbg eps dx ⟨⟨bx.1, by'.1, bz.1⟩, ⟨bx.2, by'.2, bz.2⟩⟩ points
  let fs ← hullFacets realNum dbg u.1
  let facets ← fs.mapM (outFacet u.2)
  return ⟨facets, []⟩
end Verif.Hull3
