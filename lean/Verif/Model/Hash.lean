import Verif.Model.Points
import Verif.Model.Hull
/-
Model of `geometry::Hasher` and `geometry::uniquePoints`, `/repo/src/polytope_geometric_utilities.hh` L55-279 and L1350-1389. `CoordHash` is `KeyTraits::Key`, which is
`int` (`KeyTraits.hh` L16), and so the constants of 64 bits are converted to 32 bits when they are returned.
-/
namespace Verif.Hash
open Verif Verif.Points Verif.Geom

/-- A box: lower and upper corner. -/
structure HBox where
  lo : V2 ℝ
  hi : V2 ℝ

/-- `std::max((xhigh - xlow)/coordMax(), std::max(minTol, epsilon()))` (L111-112, L150-151) with `coordMax() = max`. -/
noncomputable def cellSize (max : Int) (eps tol lo hi : ℝ) : ℝ := Max.max ((hi - lo) / (max : ℝ)) (Max.max tol eps)

/-- `CoordHash(std::min(coordMax(), CoordHash(std::max(RealType(0), pos - xlow)/dx)))` (L114-115). -/
noncomputable def quantCoord (max : Int) (eps tol lo hi x : ℝ) : Res Key := do
  let k ← toInt (Max.max 0 (x - lo) / cellSize max eps tol lo hi)
  return BitVec.ofInt 32 (min max k)

/-- `coordMax()`, 2D (L69): `(1ULL << 31) - 1` fits `int`. -/
def max2 : Int := 2147483647
/-- `xmask()`, 2D (L71). -/
def xmask2 : Key := 0x7fffffff
/-- `ymask()`, 2D (L72). -/
def ymask2 (A : Arith) : Res Key := A.shl xmask2 31
/-- `qxval`, `qyval`, 2D (L73-74). The right shift of a negative `int` is arithmetic. -/
def qx2 (v : Key) : Key := v &&& xmask2
def qy2 (A : Arith) (v : Key) : Res Key := do
  let m ← ymask2 A
  return (v &&& m).sshiftRight 31
/-- `hash`, 2D (L75). -/
def hash2 (A : Arith) (x y : Key) : Res Key := do
  let s ← A.shl y 31
  A.add x s

/-- `result += (1ULL << 63)` (L104): computed in 64 bits and converted back. -/
def addFlag (r : Key) : Key := (r.signExtend 64 + BitVec.ofNat 64 (2 ^ 63)).truncate 32
/-- `hashedPosition >= (1ULL << 63)` (L140): compared as unsigned 64 bits. -/
def hasFlag (v : Key) : Bool := decide (2 ^ 63 ≤ (v.signExtend 64).toNat)

/-- The assertions L84-89 and L129-134. -/
def nested (inner outer : HBox) : Prop :=
  (outer.lo.x ≤ inner.lo.x ∧ outer.lo.y ≤ inner.lo.y) ∧ (inner.hi.x ≤ outer.hi.x ∧ inner.hi.y ≤ outer.hi.y) ∧ (inner.lo.x ≤ inner.hi.x ∧ inner.lo.y ≤ inner.hi.y)
/-- In the closed box. -/
def inBox (b : HBox) (p : V2 ℝ) : Prop := (b.lo.x ≤ p.x ∧ p.x ≤ b.hi.x) ∧ b.lo.y ≤ p.y ∧ p.y ≤ b.hi.y

open Classical in
/-- `Hasher<2>::hashPosition` (L78-119). -/
noncomputable def hashPosition2 (A : Arith) (dbg : Bool) (eps tol : ℝ) (inner outer : HBox) (p : V2 ℝ) : Res Key := do
  Res.assert dbg (nested inner outer)
  Res.assert dbg (inBox outer p)
  let out : Prop := p.x < inner.lo.x ∨ inner.hi.x < p.x ∨ p.y < inner.lo.y ∨ inner.hi.y < p.y
  let b := if out then outer else inner
  let result : Key := if out then addFlag 0 else 0
  let kx ← quantCoord max2 eps tol b.lo.x b.hi.x p.x
  let ky ← quantCoord max2 eps tol b.lo.y b.hi.y p.y
  let h ← hash2 A kx ky
  A.add result h

/-- `std::max(xlow, std::min(xhigh, xlow + (q + 0.5)*dx))` (L155-156). -/
noncomputable def centre (max : Int) (eps tol lo hi : ℝ) (q : Key) : ℝ := Max.max lo (min hi (lo + ((q.toInt : ℝ) + 1 / 2) * cellSize max eps tol lo hi))

open Classical in
/-- `Hasher<2>::unhashPosition` (L122-167). -/
noncomputable def unhashPosition2 (A : Arith) (dbg : Bool) (eps tol : ℝ) (inner outer : HBox) (h : Key) : Res (V2 ℝ) := do
  Res.assert dbg (nested inner outer)
  let b := if hasFlag h then outer else inner
  let qy ← qy2 A h
  let p : V2 ℝ := ⟨centre max2 eps tol b.lo.x b.hi.x (qx2 h), centre max2 eps tol b.lo.y b.hi.y qy⟩
  Res.assert dbg (inBox b p)
  return p

/-! ### 3D -/

/-- `coordMax()`, 3D (L186). -/
def max3 : Int := 2097151
/-- `hash`, 3D (L194). -/
def hash3 (A : Arith) (x y z : Key) : Res Key := do
  let s ← A.shl y 21
  let t ← A.shl z 42
  let a ← A.add x s
  A.add a t

/-- A box of space. -/
structure HBox3 where
  lo : V3 ℝ
  hi : V3 ℝ

/-- The assertions L204-212. -/
def nested3 (inner outer : HBox3) : Prop :=
  (outer.lo.x ≤ inner.lo.x ∧ outer.lo.y ≤ inner.lo.y ∧ outer.lo.z ≤ inner.lo.z) ∧ (inner.hi.x ≤ outer.hi.x ∧ inner.hi.y ≤ outer.hi.y ∧ inner.hi.z ≤ outer.hi.z) ∧
  (inner.lo.x < inner.hi.x ∧ inner.lo.y < inner.hi.y ∧ inner.lo.z < inner.hi.z)
def inBox3 (b : HBox3) (p : V3 ℝ) : Prop := (b.lo.x ≤ p.x ∧ p.x ≤ b.hi.x) ∧ (b.lo.y ≤ p.y ∧ p.y ≤ b.hi.y) ∧ b.lo.z ≤ p.z ∧ p.z ≤ b.hi.z

open Classical in
/-- `Hasher<3>::hashPosition` (L197-244). -/
noncomputable def hashPosition3 (A : Arith) (dbg : Bool) (eps tol : ℝ) (inner outer : HBox3) (p : V3 ℝ) : Res Key := do
  Res.assert dbg (nested3 inner outer)
  Res.assert dbg (inBox3 outer p)
  let out : Prop := ¬ inBox3 inner p
  let b := if out then outer else inner
  let result : Key := if out then addFlag 0 else 0
  let kx ← quantCoord max3 eps tol b.lo.x b.hi.x p.x
  let ky ← quantCoord max3 eps tol b.lo.y b.hi.y p.y
  let kz ← quantCoord max3 eps tol b.lo.z b.hi.z p.z
  let h ← hash3 A kx ky kz
  A.add result h

/-! ### `uniquePoints` -/

/-- The loop L1373-1385, with the hash function as a parameter: the map of hashes, the unique points and the index map so far. `check` is the call of `unhashPosition`, whose
result is not used. -/
def uniqueLoop {α : Type} (hash : α → Res Key) (check : Key → Res Unit) : List α → List (Key × Nat) → List α → List Nat → Res (List α × List Nat)
  | [], _, u, ix => .ok (u, ix)
  | p :: ps, m, u, ix => do
    let h ← hash p
    match m.lookup h with
    | none =>
      check h
      uniqueLoop hash check ps (m ++ [(h, u.length)]) (u ++ [p]) (ix ++ [u.length])
    | some j => uniqueLoop hash check ps m u (ix ++ [j])

/-- `uniquePoints<2>`; the list of coordinates is a list of points. -/
noncomputable def uniquePoints2 (A : Arith) (dbg : Bool) (eps tol : ℝ) (b : HBox) (points : List (V2 ℝ)) : Res (List (V2 ℝ) × List Nat) :=
  uniqueLoop (hashPosition2 A dbg eps tol b b) (fun h => do let _ ← unhashPosition2 A dbg eps tol b b h; return ()) points [] [] []

/-- `uniquePoints<3>`. Of the check only the shift of `zmask()` by 42 is here: its first assertions are those of the hash, and the position is put into the box, as its last assertion demands. -/
noncomputable def uniquePoints3 (A : Arith) (dbg : Bool) (eps tol : ℝ) (b : HBox3) (points : List (V3 ℝ)) : Res (List (V3 ℝ) × List Nat) :=
  uniqueLoop (hashPosition3 A dbg eps tol b b) (fun _ => do let _ ← A.shl 0x1fffff 42; return ()) points [] [] []

end Verif.Hash
