import Verif.Model.Cxx
import Mathlib.Algebra.Order.Ring.Defs
import Mathlib.Algebra.Order.Group.Abs
/-
Model of the point types and of the Morton keys: `/repo/src/Point.hh`, `/repo/src/mortonOrderIndices.hh`, `/repo/src/KeyTraits.cc`.
-/
namespace Verif.Points
open Verif

/-- `Point2<CoordType>` (`Point.hh` L17-59). -/
structure Point2 (C : Type) where
  x : C
  y : C
  index : Nat

/-- `Point3<CoordType>` (`Point.hh` L90-136). -/
structure Point3 (C : Type) where
  x : C
  y : C
  z : C
  index : Nat

section
variable {C : Type}

/-- `Point2::operator==` (`Point.hh` L24). -/
def Point2.eq [DecidableEq C] (a b : Point2 C) : Bool := a.x = b.x ∧ a.y = b.y

/-- `Point2::operator<` (`Point.hh` L26-30). -/
def Point2.lt [LinearOrder C] (a b : Point2 C) : Bool := if a.x < b.x then true else if a.x = b.x ∧ a.y < b.y then true else false

/-- `Point3::operator==` (`Point.hh` L97). -/
def Point3.eq [DecidableEq C] (a b : Point3 C) : Bool := a.x = b.x ∧ a.y = b.y ∧ a.z = b.z

/-- `Point3::operator<` (`Point.hh` L99-104). -/
def Point3.lt [LinearOrder C] (a b : Point3 C) : Bool :=
  if a.x < b.x then true else if a.x = b.x ∧ a.y < b.y then true else if a.x = b.x ∧ a.y = b.y ∧ a.z < b.z then true else false

/-- `PointComparator::operator()` on `Point2` (`Point.hh` L175-179). -/
def fuzzy2 [CommRing C] [LinearOrder C] (fuzz : C) (a b : Point2 C) : Bool :=
  if b.x - a.x > fuzz then true else if |b.x - a.x| ≤ fuzz ∧ b.y - a.y > fuzz then true else false

/-- `PointComparator::operator()` on `Point3` (`Point.hh` L180-185). -/
def fuzzy3 [CommRing C] [LinearOrder C] (fuzz : C) (a b : Point3 C) : Bool :=
  if b.x - a.x > fuzz then true else if |b.x - a.x| ≤ fuzz ∧ b.y - a.y > fuzz then true
  else if |b.x - a.x| ≤ fuzz ∧ |b.y - a.y| ≤ fuzz ∧ b.z - a.z > fuzz then true else false

end

/-! ### Morton keys -/

/-- `KeyTraits::Key` is `int` (`KeyTraits.hh` L16): 32 bits, two's complement. -/
abbrev Key := BitVec 32

/-- `KeyTraits::maxKey1d` and `KeyTraits::maxKey` (`KeyTraits.cc` L18-19): `INT_MAX/2`. -/
def maxKey : Int := 1073741823

/-- How the platform treats integer operations whose result the language does not define. -/
structure Arith where
  /-- left shift -/
  shl : Key → Nat → Res Key
  /-- signed addition -/
  add : Key → Key → Res Key

/-- The language standard (C++11 to C++17): a shift count not below the width, a negative operand, a shifted value that does not fit, and a signed sum that does not fit
are undefined. -/
def standard : Arith where
  shl v n := if n < 32 ∧ 0 ≤ v.toInt ∧ v.toNat * 2 ^ n < 2 ^ 32 then .ok (v <<< n) else .ub
  add a b := if -2147483648 ≤ a.toInt + b.toInt ∧ a.toInt + b.toInt ≤ 2147483647 then .ok (a + b) else .ub

/-- A platform with wrapping arithmetic, where a shift by a count not below the width gives `big` (the instruction decides: zero, or the count is reduced, …). -/
def wrapping (big : Key → Nat → Key) : Arith where
  shl v n := .ok (if n < 32 then v <<< n else big v n)
  add a b := .ok (a + b)

/-- The loop of the 2D `hashPosition` (`mortonOrderIndices.hh` L36-41): `n` iterations from `i` on. The loop increment `mask <<= 1` is part of the iteration. -/
def hashLoop2 (A : Arith) (x y : Key) : Nat → Nat → Key → Key → Res Key
  | 0, _, _, result => .ok result
  | n + 1, i, mask, result => do
    let a ← A.shl (x &&& mask) i
    let b ← A.shl (y &&& mask) (i + 1)
    let s ← A.add a b
    let result ← A.add result s
    let mask ← A.shl mask 1
    hashLoop2 A x y n (i + 1) mask result

/-- 2D `hashPosition` (L24-46); `numbits1d` is 32 (`KeyTraits.cc` L13). -/
def hashPosition2 (A : Arith) (dbg : Bool) (p : Point2 Key) : Res Key := do
  Res.assert dbg (p.x.toInt ≤ maxKey)
  Res.assert dbg (p.y.toInt ≤ maxKey)
  let result ← hashLoop2 A p.x p.y 32 0 1 0
  Res.assert dbg (result.toInt ≤ maxKey)
  return result

/-- The loop of the 3D `hashPosition` (L63-67). -/
def hashLoop3 (A : Arith) (x y z : Key) : Nat → Nat → Key → Key → Res Key
  | 0, _, _, result => .ok result
  | n + 1, i, mask, result => do
    let a ← A.shl (x &&& mask) i
    let b ← A.shl (y &&& mask) (i + 1)
    let c ← A.shl (z &&& mask) (i + 2)
    let s ← A.add a b
    let s ← A.add s c
    let result ← A.add result s
    let mask ← A.shl mask 1
    hashLoop3 A x y z n (i + 1) mask result

/-- 3D `hashPosition` (L49-72). -/
def hashPosition3 (A : Arith) (dbg : Bool) (p : Point3 Key) : Res Key := do
  Res.assert dbg (p.x.toInt ≤ maxKey)
  Res.assert dbg (p.y.toInt ≤ maxKey)
  Res.assert dbg (p.z.toInt ≤ maxKey)
  let result ← hashLoop3 A p.x p.y p.z 32 0 1 0
  Res.assert dbg (result.toInt ≤ maxKey)
  return result

/-- `mortonOrderIndices` (L80-99), with the hash function of the point type: the keys of the points, in order. -/
def mortonOrderIndices {P : Type} (hash : P → Res Key) : List P → Res (List Key)
  | [] => .ok []
  | p :: ps => do
    let k ← hash p
    let ks ← mortonOrderIndices hash ps
    return k :: ks

end Verif.Points
