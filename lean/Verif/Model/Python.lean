import Verif.Model.SiloC
import Verif.Model.Hull
import Mathlib.Data.List.Sort
/-
Model of the code in the Python bindings (`/repo/src/PYB11`): the properties of `Tessellation` that are computed on the C++ side, the conversions of Python
lists, tuples and dictionaries, and the functions that use them. A Python list or tuple is the list of its entries, all of which can be converted; a
dictionary is the list of its items in the order in which Python goes through it. `none` is a Python exception.
-/
namespace Verif
namespace Py
open Mesh Silo Geom

/-! ### Properties of a tessellation -/

/-- The conversion of `unsigned` to `int` (two's complement). -/
def asInt (n : Nat) : Int := (BitVec.ofNat 32 n).toInt

/-- Component `k` of all nodes, `Tessellation.py` L91-94 (`k = 0`), L99-102 (`k = 1`) and L108-111 (`k = 2`). The counter is an `int`; that it does not
overflow is left out. -/
def component {R : Type} (D k : Nat) (m : Tess R) : Res (List R) :=
  (List.range (m.nodes.length / D)).mapM fun i => rd m.nodes (D * i + k)

/-- `xnodes`, `Tessellation.py` L90-96. -/
def xnodes {R : Type} (D : Nat) (m : Tess R) : Res (List R) := component D 0 m

/-- `ynodes`, `Tessellation.py` L98-104. -/
def ynodes {R : Type} (D : Nat) (m : Tess R) : Res (List R) := component D 1 m

/-- `znodes`, `Tessellation.py` L106-113: raises a `TypeError` unless the dimension is 3. -/
def znodes {R : Type} (D : Nat) (m : Tess R) : Option (Res (List R)) := if D ≠ 3 then none else some (component D 2 m)

/-- `facesAsInts`, `Tessellation.py` L115-120. -/
def facesAsInts {R : Type} (m : Tess R) : List (List Int) := m.faces.map fun f => f.map asInt

/-- The function given to `std::transform`, `Tessellation.py` L129. -/
def startNode (faces : List (List Nat)) (k : Int) : Res Nat :=
  if k < 0 then do
    let f ← rd faces (posID k)
    rd f 1
  else do
    let f ← rd faces k.toNat
    rd f 0

/-- `zoneNodes` in 2D, `Tessellation.py` L123-130. -/
def zoneNodes2 {R : Type} (m : Tess R) : Res (List (List Int)) :=
  m.cells.mapM fun c => do
    let ns ← c.mapM (startNode m.faces)
    pure (ns.map asInt)

/-- `std::unique` with the `erase` that follows it: of consecutive equal entries the first is kept. -/
def unique : List Int → List Int
  | [] => []
  | [a] => [a]
  | a :: b :: l => if a = b then unique (b :: l) else a :: unique (b :: l)

/-- One zone in 3D, `Tessellation.py` L134-139. `std::sort` is modelled by insertion: any sort of integers gives the same list. -/
def zone3 (faces : List (List Nat)) (c : List Int) : Res (List Int) := do
  let fs ← c.mapM fun k => rd faces (posID k)
  pure (unique ((fs.flatten.map asInt).insertionSort (· ≤ ·)))

/-- `zoneNodes` in 3D, `Tessellation.py` L131-140. -/
def zoneNodes3 {R : Type} (m : Tess R) : Res (List (List Int)) := m.cells.mapM (zone3 m.faces)

/-! ### Conversions -/

/-- `copyCoords<D>`, `polytope_pybind11_helpers.hh` L33-45. -/
def copyCoords {R : Type} (dbg : Bool) (D : Nat) (coords : List (List R)) : Res (List R) := do
  Res.assert dbg (coords.flatten.length % D = 0)
  pure coords.flatten

/-- `copyDictToMap`, `polytope_pybind11_helpers.hh` L17-28. -/
def copyDictToMap {R : Type} (d : List (String × List R)) : List (String × List R) := mapOf d

/-- L74-77 and L115-118 of `polytope_PYB11.py`: the pointers to the first values. `front()` of an empty vector is undefined. -/
def pointers {R : Type} (m : List (String × List R)) : Res (List (String × List R)) := m.mapM fun e => if e.2 = [] then .ub else pure e

/-- The first `D` entries of a tuple; a tuple that is too short raises an `IndexError`. -/
def entries {R : Type} (D : Nat) (t : List R) : Option (List R) := (List.range D).mapM fun i => t[i]?

/-! ### Functions -/

/-- The dictionaries given to `writeTessellation2d` and `writeTessellation3d`. -/
structure Dicts (R : Type) where
  nodeFields : List (String × List R) := []
  edgeFields : List (String × List R) := []
  faceFields : List (String × List R) := []
  cellFields : List (String × List R) := []
  deriving Repr, DecidableEq

/-- L69-77 of `polytope_PYB11.py` (and L110-118): the arguments for the writer. -/
def extras {R : Type} (a : Dicts R) : Res (Extras R) := do
  let n ← pointers (copyDictToMap a.nodeFields)
  let e ← pointers (copyDictToMap a.edgeFields)
  let f ← pointers (copyDictToMap a.faceFields)
  let c ← pointers (copyDictToMap a.cellFields)
  pure { nodeFields := n, edgeFields := e, faceFields := f, cellFields := c, nodeTags := [], edgeTags := [], faceTags := [], cellTags := [] }

/-- `writeTessellation2d`, `polytope_PYB11.py` L61-83 and L100-123. The names of file and directory, cycle and time are handed on and left out. -/
def write2d {R : Type} (dbg : Bool) (m : Tess R) (a : Dicts R) : Res (File2 R) := do
  let x ← extras a
  write2 dbg m x

/-- `writeTessellation3d`, `polytope_PYB11.py` L61-83 and L100-123. -/
def write3d {R : Type} (dbg : Bool) (m : Tess R) (a : Dicts R) : Res (File3 R) := do
  let x ← extras a
  write3 dbg m x

/-- `tessellateBox`, `Tessellator.py` L24-36: `tess` is the tessellation in a box of the class in hand, given the corners. -/
def tessellateBox {R α : Type} (D : Nat) (tess : List R → List R → α) (low high : List R) : Option α := do
  let l ← entries D low
  let h ← entries D high
  pure (tess l h)

/-- A flat array as pairs, the way `convexHull_2d` reads it. -/
def pairs {R : Type} : List R → List (V2 R)
  | a :: b :: l => ⟨a, b⟩ :: pairs l
  | _ => []

/-- `convexHull2d`, `polytope_PYB11.py` L141-148. -/
noncomputable def hull2d (dbg : Bool) (points : List (List ℝ)) (low : List ℝ) (dx : ℝ) : Option (Res PLC) := do
  let l ← entries 2 low
  pure do
    let coords ← copyCoords dbg 2 points
    let x ← rd l 0
    let y ← rd l 1
    convexHull2 dbg (pairs coords) ⟨x, y⟩ dx

end Py
end Verif
