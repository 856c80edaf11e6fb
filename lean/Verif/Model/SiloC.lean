import Verif.Model.Silo
import Verif.Model.CApi
import Mathlib.Data.String.Basic
/-
Model of `polytope_write_silo_with_tags` and `polytope_write_silo` (`/repo/polytope_c/polytope_write_silo.cc`), the C interface to the Silo writer, for one
process. The prefix, directory, cycle and time are handed on unchanged and left out. Names are the strings that `map<string, …>` makes of the `char*`.
-/
namespace Verif
namespace Silo
open Mesh CApi

/-- `m[k] = v` for a `std::map`, kept as the list of its entries in the order of their keys. -/
def mapSet {κ β : Type} [LinearOrder κ] (k : κ) (v : β) : List (κ × β) → List (κ × β)
  | [] => [(k, v)]
  | e :: l => if k < e.1 then (k, v) :: e :: l else if k = e.1 then (k, v) :: l else e :: mapSet k v l

/-- The loops that fill the maps, L75-82 and L86-109. -/
def mapOf {κ β : Type} [LinearOrder κ] (ps : List (κ × β)) : List (κ × β) := ps.foldl (fun m p => mapSet p.1 p.2 m) []

/-- A tag as the caller gives it: its name, its size and the array it points to. -/
structure CTag where
  name : String
  size : Nat
  values : List Int
  deriving Repr, DecidableEq

/-- The arguments, L33-60: for fields the names and the arrays, position by position, for tags also their sizes. -/
structure CArgs (R : Type) where
  nodeFields : List (String × List R) := []
  edgeFields : List (String × List R) := []
  faceFields : List (String × List R) := []
  cellFields : List (String × List R) := []
  nodeTags : List CTag := []
  edgeTags : List CTag := []
  faceTags : List CTag := []
  cellTags : List CTag := []
  deriving Repr, DecidableEq

/-- L86-91 (and L92-109): every tag is copied to a new vector and entered in the map. A vector is its number, counted from 0, and its values.
Reading past the end of the caller's array is undefined. -/
def tagMap (ts : List CTag) : Res (List (String × (Nat × List Int))) := do
  let vs ← ts.mapM fun t => readN t.size t.values
  pure (mapOf ((ts.map CTag.name).zip ((List.range ts.length).zip vs)))

/-- The map as the writer reads it. -/
def tagValues (m : List (String × (Nat × List Int))) : List (String × List Int) := m.map fun e => (e.1, e.2.2)

/-- The vectors that the clean up (L137-157) does not delete: it deletes those that the map still holds. -/
def leaked (n : Nat) (m : List (String × (Nat × List Int))) : List Nat := (List.range n).filter fun b => b ∉ m.map fun e => e.2.1

/-- The file that was written, and the vectors of node, edge, face and cell tags that were not freed. -/
structure CResult (F : Type) where
  file : F
  leaks : List (List Nat)

/-- A file of either writer. -/
inductive AnyFile (R : Type) where
  | two (f : File2 R)
  | three (f : File3 R)

/-- `polytope_write_silo_with_tags`, L32-158. -/
def cWrite {R : Type} (dbg : Bool) (c : CTess R) (a : CArgs R) : Res (CResult (AnyFile R)) := do
  let nt ← tagMap a.nodeTags
  let et ← tagMap a.edgeTags
  let ft ← tagMap a.faceTags
  let ct ← tagMap a.cellTags
  let x : Extras R :=
    { nodeFields := mapOf a.nodeFields, edgeFields := mapOf a.edgeFields, faceFields := mapOf a.faceFields, cellFields := mapOf a.cellFields
      nodeTags := tagValues nt, edgeTags := tagValues et, faceTags := tagValues ft, cellTags := tagValues ct }
  let file ← (if c.dimension = 2 then do
      let m ← importFrom 2 c {}
      let f ← write2 dbg m x
      pure (AnyFile.two f)
    else do
      Res.assert dbg (c.dimension = 3)
      let m ← importFrom 3 c {}
      let f ← write3 dbg m x
      pure (AnyFile.three f) : Res (AnyFile R))
  pure
    { file := file
      leaks := [leaked a.nodeTags.length nt, leaked a.edgeTags.length et, leaked a.faceTags.length ft, leaked a.cellTags.length ct] }

/-- `polytope_write_silo`, L160-192: no tags. -/
def cWritePlain {R : Type} (dbg : Bool) (c : CTess R) (a : CArgs R) : Res (CResult (AnyFile R)) :=
  cWrite dbg c { a with nodeTags := [], edgeTags := [], faceTags := [], cellTags := [] }

end Silo
end Verif
