import Verif.Model.Points
/-
Model of the arithmetic of the point types, `/repo/src/Point.hh` L46-58 (2D) and L122-135 (3D), for a signed integral `CoordType` that is not narrower
than `int`: a result outside its range, and a division by zero, is undefined behaviour. `lo` and `hi` are the ends of the range.
-/
namespace Verif.Points
open Verif

/-- The value of an integral operation if the type can hold it. -/
def fit (lo hi v : Int) : Res Int := if lo ≤ v ∧ v ≤ hi then .ok v else .ub

/-- `a / b` of a signed integral type: rounded towards zero; undefined for `b = 0` and if the type cannot hold the quotient. -/
def quot (lo hi a b : Int) : Res Int := if b = 0 then .ub else fit lo hi (a.tdiv b)

/-- `Point2::operator+`, by `operator+=` on a copy (`Point.hh` L48, L52). -/
def Point2.add (lo hi : Int) (a b : Point2 Int) : Res (Point2 Int) := do
  let x ← fit lo hi (a.x + b.x)
  let y ← fit lo hi (a.y + b.y)
  return ⟨x, y, a.index⟩

/-- `Point2::operator-`, by `operator-=` on a copy (L49, L53). -/
def Point2.sub (lo hi : Int) (a b : Point2 Int) : Res (Point2 Int) := do
  let x ← fit lo hi (a.x - b.x)
  let y ← fit lo hi (a.y - b.y)
  return ⟨x, y, a.index⟩

/-- `Point2::operator*`, by `operator*=` on a copy (L50, L54). -/
def Point2.mul (lo hi : Int) (a : Point2 Int) (k : Int) : Res (Point2 Int) := do
  let x ← fit lo hi (a.x * k)
  let y ← fit lo hi (a.y * k)
  return ⟨x, y, a.index⟩

/-- `Point2::operator/`, by `operator/=` on a copy (L51, L55). -/
def Point2.div (lo hi : Int) (a : Point2 Int) (k : Int) : Res (Point2 Int) := do
  let x ← quot lo hi a.x k
  let y ← quot lo hi a.y k
  return ⟨x, y, a.index⟩

/-- Unary `Point2::operator-` (L56): the constructor's default for the index is 0. -/
def Point2.neg (lo hi : Int) (a : Point2 Int) : Res (Point2 Int) := do
  let x ← fit lo hi (-a.x)
  let y ← fit lo hi (-a.y)
  return ⟨x, y, 0⟩

/-- `Point2::operator[]` (L57-58). The members are consecutive in memory; the language makes no promise of it. -/
def Point2.get (dbg : Bool) (a : Point2 Int) (i : Nat) : Res Int := do
  Res.assert dbg (i < 2)
  match i with
  | 0 => return a.x
  | 1 => return a.y
  | _ => Res.ub

/-- `Point3::operator+`, by `operator+=` on a copy (L125, L129). -/
def Point3.add (lo hi : Int) (a b : Point3 Int) : Res (Point3 Int) := do
  let x ← fit lo hi (a.x + b.x)
  let y ← fit lo hi (a.y + b.y)
  let z ← fit lo hi (a.z + b.z)
  return ⟨x, y, z, a.index⟩

/-- `Point3::operator-`, by `operator-=` on a copy (L126, L130). -/
def Point3.sub (lo hi : Int) (a b : Point3 Int) : Res (Point3 Int) := do
  let x ← fit lo hi (a.x - b.x)
  let y ← fit lo hi (a.y - b.y)
  let z ← fit lo hi (a.z - b.z)
  return ⟨x, y, z, a.index⟩

/-- `Point3::operator*`, by `operator*=` on a copy (L127, L131). -/
def Point3.mul (lo hi : Int) (a : Point3 Int) (k : Int) : Res (Point3 Int) := do
  let x ← fit lo hi (a.x * k)
  let y ← fit lo hi (a.y * k)
  let z ← fit lo hi (a.z * k)
  return ⟨x, y, z, a.index⟩

/-- `Point3::operator/`, by `operator/=` on a copy (L128, L132). -/
def Point3.div (lo hi : Int) (a : Point3 Int) (k : Int) : Res (Point3 Int) := do
  let x ← quot lo hi a.x k
  let y ← quot lo hi a.y k
  let z ← quot lo hi a.z k
  return ⟨x, y, z, a.index⟩

/-- Unary `Point3::operator-` (L133). -/
def Point3.neg (lo hi : Int) (a : Point3 Int) : Res (Point3 Int) := do
  let x ← fit lo hi (-a.x)
  let y ← fit lo hi (-a.y)
  let z ← fit lo hi (-a.z)
  return ⟨x, y, z, 0⟩

/-- `Point3::operator[]` (L134-135). -/
def Point3.get (dbg : Bool) (a : Point3 Int) (i : Nat) : Res Int := do
  Res.assert dbg (i < 3)
  match i with
  | 0 => return a.x
  | 1 => return a.y
  | 2 => return a.z
  | _ => Res.ub

end Verif.Points
