import Verif.Model.Internal
import Verif.Model.Hash
import Verif.Model.Vec
/-
Model of the 2D version of `simplifyPLCfacets` (`/repo/src/simplifyPLCfacets.hh` L25-134), which takes the points out of a closed polygon at which it does not turn. A
flat array of coordinates is a list of points. The collinearity test is a parameter of the parts, and the one of the library in the whole function at the end. `int`
and `unsigned` are unbounded.
-/
namespace Verif.Simplify
open Verif Verif.Mesh Verif.Internal Verif.Geom

/-- A `ReducedPLC<2>` with points for its flat array of coordinates. -/
structure Plc (V : Type) where
  facets : List (List Int) := []
  holes : List (List (List Int)) := []
  points : List V := []

/-- An array read at an `int`: below zero it is undefined. -/
def rdi {α : Type} (l : List α) (i : Int) : Res α := if 0 ≤ i then rd l i.toNat else .ub

/-- L51-56: a facet as a hashed edge of the unique points. -/
def inputEdge (dbg : Bool) (ix : List Nat) (f : List Int) : Res Edge := do
  Res.assert dbg (f.length = 2)
  let a ← rd f 0
  let i ← rdi ix a
  let b ← rd f 1
  let j ← rdi ix b
  hashEdge dbg i j

/-- L61-67: one of the ordered edges. -/
def orderedEdge (edges : List Edge) (order : List Int) (i : Nat) : Res Edge := do
  let j ← rd order i
  let e ← rd edges (posID j)
  return if j < 0 then (e.2, e.1) else e

section
variable {V : Type} (coll : V → V → V → Bool)

/-- The test on three points given by their numbers, in L82-85 and L94-97. -/
def collAt (pts : List V) (a b c : Int) : Res Bool := do
  let p ← rdi pts a
  let q ← rdi pts b
  let r ← rdi pts c
  return coll p q r

/-- The condition of the loop L81-85, for the edge number `i` of `n`. -/
def startTest (pts : List V) (es : List Edge) (n i : Nat) : Res Bool := do
  let e ← rd es i
  let d ← rd es ((i + n - 1) % n)
  collAt coll pts e.1 e.2 d.1

/-- The loop L81-85 from edge `i` on, with `k` edges left. -/
def findStart (pts : List V) (es : List Edge) (n : Nat) : Nat → Nat → Res Nat
  | 0, i => .ok i
  | k + 1, i => do
    let t ← startTest coll pts es n i
    if t then findStart pts es n k (i + 1) else return i

/-- The condition of the loop L94-97 for `ncoll = c`. -/
def runTest (pts : List V) (es : List Edge) (n i c : Nat) : Res Bool := do
  let e ← rd es i
  let d ← rd es ((i + c + 1) % n)
  collAt coll pts e.1 e.2 d.2

/-- The loop L94-97 from `ncoll = c` on. The condition depends on `ncoll` modulo `n` only: if it holds `n` times in a row, it holds until `++ncoll` overflows,
which is undefined. -/
def runLength (pts : List V) (es : List Edge) (n i : Nat) : Nat → Nat → Res Nat
  | 0, _ => .ub
  | k + 1, c => do
    let t ← runTest coll pts es n i c
    if t then runLength pts es n i k (c + 1) else return c

/-- The loop L92-103: the new facets. Every turn walks one edge at least, so that `n` turns are enough; the first argument counts them. -/
def walk (pts : List V) (es : List Edge) (n istart : Nat) : Nat → Nat → Res (List Edge)
  | 0, _ => .ok []
  | k + 1, nwalked =>
    if nwalked < n then do
      let i := (istart + nwalked) % n
      let c ← runLength coll pts es n i n 0
      let e ← rd es i
      let d ← rd es ((i + c) % n)
      let r ← walk pts es n istart k (nwalked + c + 1)
      return (e.1, d.2) :: r
    else .ok []

/-- L107-112: the points in use have mask 1, the others -1. -/
def useMask (n : Nat) (facets : List Edge) : Res (List Int) :=
  facets.foldlM (fun mask f => do
    let mask ← if 0 ≤ f.1 then wr mask f.1.toNat 1 else Res.ub
    if 0 ≤ f.2 then wr mask f.2.toNat 1 else Res.ub) (List.replicate n (-1))

/-- L113-116: the points in use are numbered. The numbers, and how many there are. -/
def number : List Int → Nat → List Int × Nat
  | [], n => ([], n)
  | m :: ms, n => if m = 1 then let r := number ms (n + 1); ((n : Int) :: r.1, r.2) else let r := number ms n; (m :: r.1, r.2)

/-- L117-123: the points in use are moved to the front, from point `i` on. -/
def compact (dbg : Bool) : List Int → Nat → List V → Res (List V)
  | [], _, pts => .ok pts
  | m :: ms, i, pts =>
    if m ≠ -1 then do
      Res.assert dbg (m ≤ i)
      let p ← rd pts i
      let pts ← wr pts m.toNat p
      compact dbg ms (i + 1) pts
    else compact dbg ms (i + 1) pts

/-- L125-131: one entry of a facet. -/
def renumber (dbg : Bool) (mask : List Int) (k : Int) : Res Int := do
  let m ← rdi mask k
  Res.assert dbg (m ≠ -1)
  return m

/-- L48-134: everything after the points have been made unique. -/
def simplifyWith (dbg : Bool) (facets : List (List Int)) (pts : List V) (ix : List Nat) : Res (Plc V) := do
  let n := facets.length
  let edges ← facets.mapM (inputEdge dbg ix)
  let (_, edges, order) ← computeSortedFaceEdges dbg edges
  Res.assert dbg (edges.length = n)
  let es ← (List.range n).mapM (orderedEdge edges order)
  let istart ← findStart coll pts es n n 0
  Res.assert dbg (istart ≠ n)
  let new ← walk coll pts es n istart n 0
  Res.assert dbg (2 < new.length)
  let mask ← useMask pts.length new
  let num := number mask 0
  let pts' ← compact dbg num.1 0 pts
  let fs ← new.mapM fun f => do
    let a ← renumber dbg num.1 f.1
    let b ← renumber dbg num.1 f.2
    return [a, b]
  return { facets := fs, points := pts'.take num.2 }
end

open Classical in
/-- `simplifyPLCfacets` for `PLC<2, RealType>`. `b` is the box of `xmin` and `xmax`. -/
noncomputable def simplify2 (A : Points.Arith) (dbg : Bool) (eps tol : ℝ) (b : Hash.HBox) (plc : PLC) (points : List (V2 ℝ)) : Res (Plc (V2 ℝ)) := do
  let u ← Hash.uniquePoints2 A dbg eps tol b points
  simplifyWith (fun p q r => decide (collinear2 p q r tol)) dbg plc.facets u.1 u.2
end Verif.Simplify
