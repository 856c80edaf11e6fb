import Verif.Model.Cxx
/-
Model of `/repo/src/polytope_serialize.hh` (whole file), `/repo/src/Point.hh` L69-87 and L146-166 (Serializer<Point2>,
Serializer<Point3>) and `/repo/src/Segment.hh` L40-57 (Serializer<Segment>).

A buffer is a list of bytes. A read position is an offset into the buffer; the end iterator of the C++ is the end of
the buffer.
-/
namespace Verif.Serialize
open Verif

abbrev Byte := BitVec 8

/-- `PLC` (`/repo/src/PLC.hh` L12-29): its two data members; indices are 32-bit `int`. -/
structure PLC where
  facets : List (List (BitVec 32)) := []
  holes : List (List (List (BitVec 32))) := []
  deriving Repr, DecidableEq

/-- `ReducedPLC` (`/repo/src/ReducedPLC.hh` L18-24): a PLC with its own coordinates; `double` is 64 bits. -/
structure RPLC where
  facets : List (List (BitVec 32)) := []
  holes : List (List (List (BitVec 32))) := []
  points : List (BitVec 64) := []
  deriving Repr, DecidableEq

/-- `Point2` (`/repo/src/Point.hh` L19-24) with coordinates of `k` bytes; `index` is a 32-bit `unsigned`. -/
structure Pt2 (k : Nat) where
  x : BitVec (8 * k)
  y : BitVec (8 * k)
  index : BitVec 32
  deriving Repr, DecidableEq

/-- `Point3` (`/repo/src/Point.hh` L92-97). -/
structure Pt3 (k : Nat) where
  x : BitVec (8 * k)
  y : BitVec (8 * k)
  z : BitVec (8 * k)
  index : BitVec 32
  deriving Repr, DecidableEq

/-- The types the library serializes. `prim k` is any arithmetic type of `k` bytes, as its bit pattern; `seg t` is a
`Segment` whose two end points have (point) type `t`. -/
inductive Ty where
  | prim (k : Nat)
  | vec (t : Ty)
  | point2 (k : Nat)
  | point3 (k : Nat)
  | seg (t : Ty)
  | plc
  | rplc

/-- The values of a type. -/
@[reducible] def Ty.denote : Ty → Type
  | .prim k => BitVec (8 * k)
  | .vec t => List t.denote
  | .point2 k => Pt2 k
  | .point3 k => Pt3 k
  | .seg t => t.denote × t.denote
  | .plc => PLC
  | .rplc => RPLC

/-- The value-initialised object a receiver starts from (`std::vector::resize`, default constructors). -/
def Ty.fresh : (t : Ty) → t.denote
  | .prim k => 0#(8 * k)
  | .vec _ => []
  | .point2 _ => ⟨0, 0, 0⟩
  | .point3 _ => ⟨0, 0, 0, 0⟩
  | .seg t => (t.fresh, t.fresh)
  | .plc => {}
  | .rplc => {}

/-- The object representation of a `k`-byte value, least significant byte first (`polytope_serialize.hh` L28-33:
`reinterpret_cast<const char*>(&val)`; the model fixes little-endian byte order, the theorems do not depend on it). -/
def bytesOf : (k : Nat) → BitVec (8 * k) → List Byte
  | 0, _ => []
  | k + 1, v => v.setWidth 8 :: bytesOf k ((v >>> 8).setWidth (8 * k))

/-- Inverse of `bytesOf` on `k` bytes. -/
def ofBytes : (k : Nat) → List Byte → BitVec (8 * k)
  | 0, _ => 0#0
  | _ + 1, [] => 0
  | k + 1, b :: bs => (b.setWidth (8 * (k + 1))) ||| ((ofBytes k bs).setWidth (8 * (k + 1)) <<< 8)

/-- `Serializer<T>::serializeImpl` for primitive `T` (L28-33): append the bytes. -/
def serPrim (k : Nat) (v : BitVec (8 * k)) (buf : List Byte) : List Byte := buf ++ bytesOf k v

/-- `Serializer<unsigned>::serializeImpl(n, ...)` where `const unsigned n = val.size()` (L52-53): the size is truncated to
32 bits. -/
def serSize (n : Nat) (buf : List Byte) : List Byte := serPrim 4 (BitVec.ofNat 32 n) buf

/-- The loop `for (i = 0; i != n; ++i) serialize(val[i])` (L54, L75, L96, L156): the first `n` elements. -/
def serList {α : Type} (f : α → List Byte → List Byte) : List α → List Byte → List Byte
  | [], buf => buf
  | a :: as, buf => serList f as (f a buf)

/-- `Serializer<std::vector<T>>::serializeImpl` (L50-55, L71-76, L92-97). `n` is a 32-bit `unsigned`, so only
`size mod 2^32` elements are written. -/
def serVec {α : Type} (f : α → List Byte → List Byte) (v : List α) (buf : List Byte) : List Byte :=
  serList f (v.take (v.length % 2 ^ 32)) (serSize v.length buf)

/-- `serialize` (L112-116 dispatching to the functors). -/
def ser : (t : Ty) → t.denote → List Byte → List Byte
  | .prim k, v, buf => serPrim k v buf
  | .vec t, v, buf => serVec (ser t) v buf
  -- `Point.hh` L73-78
  | .point2 k, v, buf => serPrim 4 v.index (serPrim k v.y (serPrim k v.x buf))
  -- `Point.hh` L150-156
  | .point3 k, v, buf => serPrim 4 v.index (serPrim k v.z (serPrim k v.y (serPrim k v.x buf)))
  -- `Segment.hh` L44-48
  | .seg t, v, buf => ser t v.2 (ser t v.1 buf)
  -- `polytope_serialize.hh` L132-136
  | .plc, v, buf =>
    serVec (serVec (serVec (serPrim 4))) v.holes (serVec (serVec (serPrim 4)) v.facets buf)
  -- `polytope_serialize.hh` L152-159
  | .rplc, v, buf =>
    let buf := serSize v.facets.length buf
    let buf := serList (serVec (serPrim 4)) (v.facets.take (v.facets.length % 2 ^ 32)) buf
    let buf := serVec (serVec (serVec (serPrim 4))) v.holes buf
    serVec (serPrim 8) v.points buf

/-- `Serializer<T>::deserializeImpl` for primitive `T` (L35-43): assert that the bytes are there, copy them, advance.
Without the assertion, copying past the end is undefined behaviour. -/
def deserPrim (dbg : Bool) (k : Nat) (buf : List Byte) (pos : Nat) : Res (BitVec (8 * k) × Nat) := do
  Res.assert dbg (pos + k ≤ buf.length)
  if pos + k ≤ buf.length then
    return (ofBytes k ((buf.drop pos).take k), pos + k)
  else .ub

/-- Deserialize into each of the given destination elements in turn (the loops L63, L84, L105, L167). -/
def deserList {α : Type} (f : α → List Byte → Nat → Res (α × Nat)) :
    List α → List Byte → Nat → Res (List α × Nat)
  | [], _, pos => .ok ([], pos)
  | d :: ds, buf, pos => do
    let (a, pos) ← f d buf pos
    let (as, pos) ← deserList f ds buf pos
    return (a :: as, pos)

/-- `Serializer<std::vector<T>>::deserializeImpl` (L57-64, L78-85, L99-106): read the count, grow the destination by that many
fresh elements, read into the new elements. What the destination held before stays in front. -/
def deserVec {α : Type} (dbg : Bool) (fresh : α) (f : α → List Byte → Nat → Res (α × Nat))
    (dst : List α) (buf : List Byte) (pos : Nat) : Res (List α × Nat) := do
  let (n, pos) ← deserPrim dbg 4 buf pos
  let (as, pos) ← deserList f (List.replicate n.toNat fresh) buf pos
  return (dst ++ as, pos)

/-- `std::vector::resize(n)`: cut off or pad with fresh elements. -/
def resize {α : Type} (l : List α) (n : Nat) (fresh : α) : List α :=
  l.take n ++ List.replicate (n - l.length) fresh

/-- Element reader for `int` and for coordinates: the old value of the destination is overwritten. -/
def deserInto (dbg : Bool) (k : Nat) (_ : BitVec (8 * k)) (buf : List Byte) (pos : Nat) : Res (BitVec (8 * k) × Nat) :=
  deserPrim dbg k buf pos

/-- `deserialize` (L118-123 dispatching to the functors), into the existing object `dst`. -/
def deser (dbg : Bool) : (t : Ty) → (dst : t.denote) → List Byte → Nat → Res (t.denote × Nat)
  | .prim k, dst, buf, pos => deserInto dbg k dst buf pos
  | .vec t, dst, buf, pos => deserVec dbg t.fresh (deser dbg t) dst buf pos
  -- `Point.hh` L80-86
  | .point2 k, _, buf, pos => do
    let (x, pos) ← deserPrim dbg k buf pos
    let (y, pos) ← deserPrim dbg k buf pos
    let (i, pos) ← deserPrim dbg 4 buf pos
    return (⟨x, y, i⟩, pos)
  -- `Point.hh` L158-165
  | .point3 k, _, buf, pos => do
    let (x, pos) ← deserPrim dbg k buf pos
    let (y, pos) ← deserPrim dbg k buf pos
    let (z, pos) ← deserPrim dbg k buf pos
    let (i, pos) ← deserPrim dbg 4 buf pos
    return (⟨x, y, z, i⟩, pos)
  -- `Segment.hh` L50-55
  | .seg t, dst, buf, pos => do
    let (a, pos) ← deser dbg t dst.1 buf pos
    let (b, pos) ← deser dbg t dst.2 buf pos
    return ((a, b), pos)
  -- `polytope_serialize.hh` L138-143
  | .plc, dst, buf, pos => do
    let (fs, pos) ← deserVec dbg [] (deserVec dbg 0 (deserInto dbg 4)) dst.facets buf pos
    let (hs, pos) ← deserVec dbg [] (deserVec dbg [] (deserVec dbg 0 (deserInto dbg 4))) dst.holes buf pos
    return (⟨fs, hs⟩, pos)
  -- `polytope_serialize.hh` L161-170: `facets.resize(nf)` and then read into every facet
  | .rplc, dst, buf, pos => do
    let (nf, pos) ← deserPrim dbg 4 buf pos
    let (fs, pos) ← deserList (deserVec dbg 0 (deserInto dbg 4)) (resize dst.facets nf.toNat []) buf pos
    let (hs, pos) ← deserVec dbg [] (deserVec dbg [] (deserVec dbg 0 (deserInto dbg 4))) dst.holes buf pos
    let (ps, pos) ← deserVec dbg 0 (deserInto dbg 8) dst.points buf pos
    return (⟨fs, hs, ps⟩, pos)

/-- A message: values of any types, one after the other (e.g. `DistributedTessellator.cc` L248-262). -/
abbrev Msg := List (Σ t : Ty, t.denote)

/-- The sender's loop: serialize each value onto the buffer. -/
def serMsg : Msg → List Byte → List Byte
  | [], buf => buf
  | ⟨t, v⟩ :: m, buf => serMsg m (ser t v buf)

/-- The receiver's loop: deserialize a fresh object of each expected type. -/
def deserMsg (dbg : Bool) : List Ty → List Byte → Nat → Res (Msg × Nat)
  | [], _, pos => .ok ([], pos)
  | t :: ts, buf, pos => do
    let (v, pos) ← deser dbg t t.fresh buf pos
    let (m, pos) ← deserMsg dbg ts buf pos
    return (⟨t, v⟩ :: m, pos)

end Verif.Serialize
