import Verif.Model.Distributed
/-
Model of what `DistributedTessellator` (`/repo/src/DistributedTessellator.cc`) does with the boundary it is given: the public calls (L127-182), which store it in members of the object, the dispatch of
the serial tessellations (L745-769 and L952-978) and the copy of a PLC made for the search of neighbours (L959-976).
-/
namespace Verif.Nbr
open Verif Verif.Mesh Verif.Geom Verif.Internal

/-- `TessellationType` (`/repo/src/DistributedTessellator.hh`). -/
inductive Mode where
  | unbounded
  | box
  | plc
  deriving DecidableEq, Repr

/-- The members `mType`, `mLow`, `mHigh`, `mPLCpointsPtr` and `mPLCptr`. A pointer is what it points to, or `none` if it is null: pointers left from an earlier call may dangle, and their target stands for
the bytes that would be read there. -/
structure DistObj (K : Type) where
  mode : Mode := .unbounded
  low : Option (List K) := none
  high : Option (List K) := none
  plcPoints : Option (List K) := none
  plc : Option PLC := none

/-- The arguments of the four public calls that say where to tessellate. -/
inductive Bounds (K : Type) where
  | unbounded
  | box (low high : List K)
  | plc (points : List K) (geometry : PLC)
  | reduced (geometry : RPLC K)

/-- What the public calls do to the members (L131-132, L145-148, L160-163, L176-179) before `computeDistributedTessellation`. -/
def DistObj.enter {K : Type} (o : DistObj K) : Bounds K → DistObj K
  | .unbounded => { o with mode := .unbounded }
  | .box low high => { o with mode := .box, low := some low, high := some high }
  | .plc points g => { o with mode := .plc, plcPoints := some points, plc := some g }
  | .reduced g => { o with mode := .plc, plcPoints := some g.points, plc := some ⟨g.facets, g.holes⟩ }

/-- The serial tessellator: its three calls, as functions of their arguments. -/
structure Serial (K : Type) where
  free : List K → Res (Tess K)
  inBox : List K → List K → List K → Res (Tess K)
  inPLC : List K → List K → PLC → Res (Tess K)

/-- Following a pointer: undefined if it is null. -/
def deref {α : Type} : Option α → Res α
  | some a => .ok a
  | none => .ub

/-- `tessellationWrapper` (L745-769). In a box the pointers are handed on, and followed by the serial tessellator. -/
def tessWrapper {K : Type} (dbg : Bool) (s : Serial K) (o : DistObj K) (points : List K) : Res (Tess K) :=
  match o.mode with
  | .unbounded => s.free points
  | .box => do
    Res.assert dbg o.low.isSome
    Res.assert dbg o.high.isSome
    let l ← deref o.low
    let h ← deref o.high
    s.inBox points l h
  | .plc => do
    Res.assert dbg o.plc.isSome
    let p ← deref o.plcPoints
    let g ← deref o.plc
    s.inPLC points p g

/-- One step of the loop L964-974 over the vertices of a facet, in dimension `d`: the map, the points so far, and the new number. -/
def visPLCVertex {K : Type} (d : Nat) (pts : List K) (st : KMap Int × List K) (i : Int) : Res ((KMap Int × List K) × Int) := do
  let r := addKey i st.1
  let new ← if st.1.length ≠ r.2.length then (List.range d).mapM fun j => if i < 0 then .ub else rd pts (d * i.toNat + j) else .ok []
  return ((r.2, st.2 ++ new), (r.1 : Int))

/-- The loop L964-974 over the vertices of one facet. -/
def visPLCFacet {K : Type} (d : Nat) (pts : List K) : KMap Int × List K → List Int → Res ((KMap Int × List K) × List Int)
  | st, [] => .ok (st, [])
  | st, i :: is => do
    let a ← visPLCVertex d pts st i
    let b ← visPLCFacet d pts a.1 is
    return (b.1, a.2 :: b.2)

/-- The loop L963-975 over the facets. -/
def visPLCFacets {K : Type} (d : Nat) (pts : List K) : KMap Int × List K → List (List Int) → Res ((KMap Int × List K) × List (List Int))
  | st, [] => .ok (st, [])
  | st, f :: fs => do
    let a ← visPLCFacet d pts st f
    let b ← visPLCFacets d pts a.1 fs
    return (b.1, a.2 :: b.2)

/-- L959-975: `tmpPLCpoints` and `tmpPLC`. The holes of the boundary are not copied. -/
def visPLC {K : Type} (d : Nat) (pts : List K) (g : PLC) : Res (List K × PLC) := do
  let r ← visPLCFacets d pts ([], []) g.facets
  return (r.1.2, { facets := r.2 })

/-- The tessellation of the visible points of all processes (L952-978) in dimension `d`. -/
def visTessellate {K : Type} (d : Nat) (s : Serial K) (o : DistObj K) (points : List K) : Res (Tess K) :=
  match o.mode with
  | .unbounded => s.free points
  | .box => do
    let l ← deref o.low
    let h ← deref o.high
    s.inBox points l h
  | .plc => do
    let p ← deref o.plcPoints
    let g ← deref o.plc
    let t ← visPLC d p g
    s.inPLC points t.1 t.2

section
variable {K κ : Type} [Field K] [LinearOrder K]

/-- One public call on process `rank`, on an object in state `o`, in two dimensions: the object afterwards and the mesh, as in `distributed`. Every process passes the same boundary. -/
def DistObj.call (dbg : Bool) (hull : List K → Res (RPLC K)) (s : Serial K) (key : List K → κ) (fkey : Tess K → Nat → Res κ) (srt : List (κ × Nat) → List (κ × Nat))
    (o : DistObj K) (b : Bounds K) (points : List (List K)) (rank : Nat) : DistObj K × Res (Tess K) :=
  let o' := o.enter b
  (o', distributed dbg hull s.free (visTessellate 2 s o') (tessWrapper dbg s o') key fkey srt points rank)

/-- The object after a history of calls. What a call computes does not change it. -/
def DistObj.after (o : DistObj K) (hist : List (Bounds K)) : DistObj K := hist.foldl DistObj.enter o
end
end Verif.Nbr
