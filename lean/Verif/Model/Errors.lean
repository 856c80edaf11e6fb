import Verif.Model.Triangle
import Verif.Model.CApi
/-
Model of the error handlers: `/repo/src/ErrorHandler.cc`, `/repo/polytope_c/polytope_c.cc`, and of their use in `computeDelaunay`, `/repo/src/TriangleTessellator.cc` L67-136; and of the tessellator objects of the C interface,
`/repo/polytope_c/polytope_tessellator.cc` L214-388. Functions of the user are numbers. A user's handler does not itself call `error` or set handlers.
-/
namespace Verif.Errors
open Verif Verif.Mesh

/-- Who is called: the default handler of the library (ErrorHandler.cc L23-39), a C++ function, or a C function. -/
inductive Who where
  | dflt
  | cpp (h : Nat)
  | c (h : Nat)
  deriving DecidableEq, Repr

/-- What `errorHandler` (ErrorHandler.cc L18) can point to: the default handler, a C++ function of the user, `polytope_c_error_handler` (polytope_c.cc L11-15). -/
inductive Fn where
  | dflt
  | cpp (h : Nat)
  | wrap
  deriving DecidableEq, Repr

/-- The static variables `errorHandler` (ErrorHandler.cc L18) and `err_handler` (polytope_c.cc L9). `none` is the null pointer. -/
structure St where
  handler : Option Fn := none
  cHandler : Option Nat := none
  deriving DecidableEq, Repr

/-- A call of a handler: who, text, status. -/
abbrev Ev := Who × List Char × Int

/-- What a C function sees of `message.c_str()` (polytope_c.cc L14): the text up to the first NUL. -/
def cStr (msg : List Char) : List Char := msg.takeWhile (· ≠ Char.ofNat 0)

/-- `error` (ErrorHandler.cc L45-54). -/
def error (s : St) (msg : List Char) (status : Int) : Res (St × Ev) :=
  let f := s.handler.getD .dflt
  let s := { s with handler := some f }
  match f with
  | .dflt => .ok (s, (.dflt, msg, status))
  | .cpp h => .ok (s, (.cpp h, msg, status))
  | .wrap =>
    match s.cHandler with
    | none => .ub
    | some h => .ok (s, (.c h, cStr msg, status))

/-- `setErrorHandler` (ErrorHandler.cc L58-62). -/
def setErrorHandler (s : St) (h : Option Nat) : St := { s with handler := h.map Fn.cpp }

/-- `polytope_set_error_handler` (polytope_c.cc L22-27). -/
def setC (dbg : Bool) (s : St) (h : Option Nat) : Res St := do
  Res.assert dbg (h ≠ none)
  return { handler := some .wrap, cHandler := h }

/-- What a program does. -/
inductive Op where
  | set (h : Option Nat)
  | setC (h : Option Nat)
  | error (msg : List Char) (status : Int)
  deriving DecidableEq, Repr

/-- A run of a program: the calls of handlers, in order. The default handler ends the program (`exit`, or `MPI_Abort`); `ends` says which of the user's handlers do not return. -/
def run (dbg : Bool) (ends : Who → Bool) : List Op → St → Res (List Ev)
  | [], _ => .ok []
  | .set h :: os, s => run dbg ends os (setErrorHandler s h)
  | .setC h :: os, s => do
    let s ← setC dbg s h
    run dbg ends os s
  | .error msg st :: os, s => do
    let r ← error s msg st
    if r.2.1 = .dflt ∨ ends r.2.1 then return [r.2]
    else do
      let evs ← run dbg ends os r.1
      return r.2 :: evs

/-! ### `computeDelaunay` -/

/-- What matters of the structure that Triangle fills: the number of points and the triangles. -/
structure Delaunay where
  points : Nat
  tris : List Tri.Tri3
  deriving DecidableEq, Repr

/-- The end of `computeDelaunay`: the calls of the handler; whether the function returned; whether the array `in.pointlist` is still allocated. -/
structure DelaunayEnd where
  calls : List Ev
  returned : Bool
  leaked : Bool
  deriving DecidableEq, Repr

/-- The message of L125. -/
def noTriangles : List Char := "TriangleTessellator: Delauney triangulation produced 0 triangles!".toList

/-- `if (bad) error(msg)` (L124-131): the status is the default argument -1 (ErrorHandler.hh L11). -/
def report (s : St) (bad : Bool) (msg : List Char) : Res (St × List Ev) :=
  if bad then do
    let r ← error s msg (-1)
    return (r.1, [r.2])
  else .ok (s, [])

/-- Whether one of the calls does not return. -/
def stops (ends : Who → Bool) (l : List Ev) : Bool := l.any fun e => decide (e.1 = .dflt) || ends e.1

/-- L123-135, after the call of `triangulate` for `n` points gave `d`; `text` is the message of L128-129. -/
def computeDelaunay (ends : Who → Bool) (s : St) (n : Nat) (text : List Char) (d : Delaunay) : Res DelaunayEnd := do
  let r1 ← report s (decide (d.tris = [])) noTriangles
  if stops ends r1.2 then return ⟨r1.2, false, true⟩
  else do
    let r2 ← report r1.1 (decide (d.points ≠ n)) text
    if stops ends r2.2 then return ⟨r1.2 ++ r2.2, false, true⟩
    else return ⟨r1.2 ++ r2.2, true, false⟩

/-- `tessellateQuantized` (L353-505) with the error handlers: `triangleTess` of `Model/Triangle` is the case of the default handler. `none`: the handler did not return. -/
noncomputable def triangleTess (ends : Who → Bool) (s : St) (text : List Char) (delaunay : List (Geom.V2 ℝ) → Delaunay) (dbg : Bool) (q : Geom.QT) : Res (Option Geom.QT) := do
  let pts := (q.generators ++ q.guards).map (Tri.dequantize2 q)
  let d := delaunay pts
  let e ← computeDelaunay ends s pts.length text d
  if e.returned = false then return none
  else do
  let r ← Tri.triRead dbg (Tri.triCentre dbg q pts q.generators.length) q.generators.length pts.length d.tris
  return some { q with nodes := r.1.map fun p => ⟨p.1, p.2, 0⟩, edges := r.2.1, cellEdges := r.2.2 }

/-! ### Tessellator objects in C -/

/-- A C++ tessellator of dimension `dim`, as far as the C interface uses it: its three functions, on flat coordinates, and its name. -/
structure Tessellator (R : Type) where
  unbounded : List R → Res (Tess R)
  inBox : List R → List R → List R → Res (Tess R)
  inPLC : List R → List R → PLC → Res (Tess R)
  name : List Char

/-- `polytope_tessellator_t` (polytope_tessellator.cc L215-219): `none` is the null pointer. -/
structure Obj (R : Type) where
  tess2 : Option (Tessellator R)
  tess3 : Option (Tessellator R)

/-- `boost_tessellator_new`, `triangle_tessellator_new` (L355-376): two-dimensional. -/
def new2 {R : Type} (t : Tessellator R) : Obj R := ⟨some t, none⟩
/-- `tetgen_tessellator_new` (L378-387): three-dimensional. -/
def new3 {R : Type} (t : Tessellator R) : Obj R := ⟨none, some t⟩

/-- `polytope_tessellator_dimension` (L344-350). -/
def dimension {R : Type} (o : Obj R) : Nat := if o.tess2.isSome then 2 else 3

/-- `vector(points, points + n)` (L241 and others): the first `n` numbers of a C array. -/
def firstOf {R : Type} (a : List R) (n : Nat) : Res (List R) := if n ≤ a.length then .ok (a.take n) else .ub

/-- The tessellator behind the object with its dimension; a null pointer is followed only without assertions (L247 and others). -/
def behind {R : Type} (dbg : Bool) (o : Obj R) : Res (Nat × Tessellator R) :=
  match o.tess2 with
  | some t => .ok (2, t)
  | none => do
    Res.assert dbg (o.tess3.isSome = true)
    match o.tess3 with
    | some t => return (3, t)
    | none => .ub

/-- `polytope_tessellator_tessellate_unbounded` (L234-254). -/
def tessellateUnbounded {R : Type} (dbg : Bool) (o : Obj R) (points : List R) (n : Nat) (mesh : CApi.CTess R) : Res (CApi.CTess R) := do
  let t ← behind dbg o
  let pts ← firstOf points (t.1 * n)
  let m ← t.2.unbounded pts
  CApi.exportTo dbg t.1 m mesh

/-- `polytope_tessellator_tessellate_in_box` (L258-280). The C++ function reads `dim` numbers of `low` and `high`. -/
def tessellateInBox {R : Type} (dbg : Bool) (o : Obj R) (points : List R) (n : Nat) (low high : List R) (mesh : CApi.CTess R) : Res (CApi.CTess R) := do
  let t ← behind dbg o
  let pts ← firstOf points (t.1 * n)
  let low ← firstOf low t.1
  let high ← firstOf high t.1
  let m ← t.2.inBox pts low high
  CApi.exportTo dbg t.1 m mesh

/-- `fill_plc` (polytope_plc.cc L236-250): a PLC object is made for one dimension, and has a null pointer for the other. -/
def plcOf (dim : Nat) (plc : Nat × PLC) : Res PLC := if plc.1 = dim then .ok plc.2 else .ub

/-- `polytope_tessellator_tessellate_in_plc` (L284-312). -/
def tessellateInPLC {R : Type} (dbg : Bool) (o : Obj R) (points : List R) (n : Nat) (plcPoints : List R) (np : Nat) (plc : Nat × PLC) (mesh : CApi.CTess R) : Res (CApi.CTess R) := do
  let t ← behind dbg o
  let pts ← firstOf points (t.1 * n)
  let ppts ← firstOf plcPoints (t.1 * np)
  let plc ← plcOf t.1 plc
  let m ← t.2.inPLC pts ppts plc
  CApi.exportTo dbg t.1 m mesh

/-- Texts in memory: `none` for a text whose life has ended. -/
abbrev Texts := List (Option (List Char))

/-- `polytope_tessellator_name` (L325-331): `name()` makes a string, whose text is returned as a pointer, and which is destroyed at the end of the statement. -/
def name {R : Type} (dbg : Bool) (o : Obj R) (mem : Texts) : Res (Texts × Nat) := do
  let t ← behind dbg o
  let mem := mem ++ [some t.2.name]
  let p := mem.length - 1
  return (mem.set p none, p)

/-- Using the text at `p`. -/
def readText (mem : Texts) (p : Nat) : Res (List Char) :=
  match mem[p]? with
  | some (some t) => .ok t
  | _ => .ub
end Verif.Errors
