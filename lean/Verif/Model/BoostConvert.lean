import Verif.Model.Cxx
import Verif.Model.Internal
/-
Model of `constructBoostBoundary` and `convertTessellationToRings`, `/repo/src/polytope_tessellator_utilities.hh` L128-222. A Boost polygon is
its outer ring and its inner rings; `boost::geometry::append` appends a point to a ring.
-/
namespace Verif.BoostConvert
open Verif

variable {P : Type}

/-- `boost::geometry::model::polygon`. -/
structure Poly (P : Type) where
  outer : List P
  inners : List (List P)
  deriving DecidableEq

/-- `PLCPoints[i]` for an `int` i. -/
def ptAt (pts : List P) (i : Int) : Res P := if i < 0 then .ub else rd pts i.toNat

/-- The loops L149-153 and L163-167: the second node of every facet. -/
def heads (dbg : Bool) (pts : List P) : List (List Int) → Res (List P)
  | [] => .ok []
  | f :: fs => do
    Res.assert dbg (f.length = 2)
    let i ← rd f 1
    let p ← ptAt pts i
    let rest ← heads dbg pts fs
    return p :: rest

/-- One ring, appended to what the ring holds (L148-155, L162-169). -/
def addRing [DecidableEq P] (dbg : Bool) (pts : List P) (facets : List (List Int)) (ring : List P) : Res (List P) := do
  let f ← rd facets 0
  let i ← rd f 0
  let p ← ptAt pts i
  let rest ← heads dbg pts facets
  let ring := ring ++ p :: rest
  Res.assert dbg (ring.length = facets.length + 1)
  Res.assert dbg (ring.head? = ring.getLast?)
  return ring

/-- The loop L161-170 over the holes, with the inner rings that are there. -/
def addHoles [DecidableEq P] (dbg : Bool) (pts : List P) : List (List (List Int)) → List (List P) → Res (List (List P))
  | [], rings => .ok rings
  | _ :: _, [] => .ub
  | h :: hs, r :: rs => do
    let r ← addRing dbg pts h r
    let rest ← addHoles dbg pts hs rs
    return r :: rest

/-- `constructBoostBoundary` (L139-173). -/
def constructBoostBoundary [DecidableEq P] (dbg : Bool) (pts : List P) (facets : List (List Int)) (holes : List (List (List Int))) (boundary : Poly P) : Res (Poly P) := do
  let outer ← addRing dbg pts facets boundary.outer
  if holes.length > 0 then do
    let inners := boundary.inners.take holes.length ++ List.replicate (holes.length - boundary.inners.length) []
    let inners ← addHoles dbg pts holes inners
    Res.assert dbg (inners.length = holes.length)
    return ⟨outer, inners⟩
  else return ⟨outer, boundary.inners⟩

/-- The loop L205-215 over the faces of one cell. `quant` is the quantizing constructor of `IntPoint` on the position of a node, of which there
are `nnodes`; an `int` below zero that indexes a vector is out of its bounds. -/
def cellNodes (dbg : Bool) (faces : List (List Nat)) (nfc nnodes : Nat) (quant : Nat → P) : List Int → Res (List P)
  | [] => .ok []
  | s :: ss => do
    let iface := if s < 0 then (-s - 1).toNat else s.toNat
    Res.assert dbg (iface < nfc)
    let f ← rd faces iface
    Res.assert dbg (f.length = 2)
    let inode ← if s < 0 then rd f 1 else rd f 0
    if nnodes ≤ inode then Res.ub
    else do
      let rest ← cellNodes dbg faces nfc nnodes quant ss
      return quant inode :: rest

/-- The loop L202-220 over the cells. `correct` is what `boost::geometry::correct` makes of a ring, `crosses` is `boost::geometry::intersects`. -/
def rings [DecidableEq P] (dbg : Bool) (faces : List (List Nat)) (nfc nnodes : Nat) (quant : Nat → P) (correct : List P → List P) (crosses : List P → Bool) :
    List (List Int) → Res (List (List P))
  | [] => .ok []
  | c :: cs => do
    let ns ← cellNodes dbg faces nfc nnodes quant c
    let r := correct ns
    Res.assert dbg (r.head? = r.getLast?)
    Res.assert dbg (crosses r = false)
    let rest ← rings dbg faces nfc nnodes quant correct crosses cs
    return r :: rest

/-- `convertTessellationToRings` (L185-222). -/
def convertTessellationToRings [DecidableEq P] (dbg : Bool) (cells : List (List Int)) (faces : List (List Nat)) (nfc nnodes : Nat) (quant : Nat → P)
    (correct : List P → List P) (crosses : List P → Bool) : Res (List (List P)) := do
  Res.assert dbg (cells ≠ [])
  Res.assert dbg (faces ≠ [])
  Res.assert dbg (nnodes ≠ 0)
  rings dbg faces nfc nnodes quant correct crosses cells

end Verif.BoostConvert
