import Mathlib.Algebra.Order.Field.Basic
import Mathlib.Data.Real.Sqrt
import Verif.Model.Cxx
/-
Vectors of two and three coordinates, and the elementary operations of `/repo/src/polytope_geometric_utilities.hh` L280-444 on them.
A `RealType*` argument that points to two (three) coordinates is a `V2` (`V3`). Arithmetic is exact.
-/
namespace Verif.Geom

@[ext] structure V2 (K : Type) where
  x : K
  y : K
  deriving DecidableEq, Repr

@[ext] structure V3 (K : Type) where
  x : K
  y : K
  z : K
  deriving DecidableEq, Repr

section
variable {K : Type} [Field K]

instance : Add (V2 K) := ⟨fun a b => ⟨a.x + b.x, a.y + b.y⟩⟩
instance : Sub (V2 K) := ⟨fun a b => ⟨a.x - b.x, a.y - b.y⟩⟩
instance : Zero (V2 K) := ⟨⟨0, 0⟩⟩
instance : Add (V3 K) := ⟨fun a b => ⟨a.x + b.x, a.y + b.y, a.z + b.z⟩⟩
instance : Sub (V3 K) := ⟨fun a b => ⟨a.x - b.x, a.y - b.y, a.z - b.z⟩⟩
instance : Zero (V3 K) := ⟨⟨0, 0, 0⟩⟩

/-- Multiply every coordinate. -/
def V2.scale (t : K) (a : V2 K) : V2 K := ⟨t * a.x, t * a.y⟩
def V3.scale (t : K) (a : V3 K) : V3 K := ⟨t * a.x, t * a.y, t * a.z⟩
/-- Divide every coordinate. -/
def V2.div (a : V2 K) (t : K) : V2 K := ⟨a.x / t, a.y / t⟩
def V3.div (a : V3 K) (t : K) : V3 K := ⟨a.x / t, a.y / t, a.z / t⟩

@[simp] theorem V2.add_x (a b : V2 K) : (a + b).x = a.x + b.x := rfl
@[simp] theorem V2.add_y (a b : V2 K) : (a + b).y = a.y + b.y := rfl
@[simp] theorem V2.sub_x (a b : V2 K) : (a - b).x = a.x - b.x := rfl
@[simp] theorem V2.sub_y (a b : V2 K) : (a - b).y = a.y - b.y := rfl
@[simp] theorem V2.zero_x : (0 : V2 K).x = 0 := rfl
@[simp] theorem V2.zero_y : (0 : V2 K).y = 0 := rfl
@[simp] theorem V3.add_x (a b : V3 K) : (a + b).x = a.x + b.x := rfl
@[simp] theorem V3.add_y (a b : V3 K) : (a + b).y = a.y + b.y := rfl
@[simp] theorem V3.add_z (a b : V3 K) : (a + b).z = a.z + b.z := rfl
@[simp] theorem V3.sub_x (a b : V3 K) : (a - b).x = a.x - b.x := rfl
@[simp] theorem V3.sub_y (a b : V3 K) : (a - b).y = a.y - b.y := rfl
@[simp] theorem V3.sub_z (a b : V3 K) : (a - b).z = a.z - b.z := rfl
@[simp] theorem V3.zero_x : (0 : V3 K).x = 0 := rfl
@[simp] theorem V3.zero_y : (0 : V3 K).y = 0 := rfl
@[simp] theorem V3.zero_z : (0 : V3 K).z = 0 := rfl
@[simp] theorem V2.scale_x (t : K) (a : V2 K) : (V2.scale t a).x = t * a.x := rfl
@[simp] theorem V2.scale_y (t : K) (a : V2 K) : (V2.scale t a).y = t * a.y := rfl
@[simp] theorem V3.scale_x (t : K) (a : V3 K) : (V3.scale t a).x = t * a.x := rfl
@[simp] theorem V3.scale_y (t : K) (a : V3 K) : (V3.scale t a).y = t * a.y := rfl
@[simp] theorem V3.scale_z (t : K) (a : V3 K) : (V3.scale t a).z = t * a.z := rfl
@[simp] theorem V2.div_x (t : K) (a : V2 K) : (V2.div a t).x = a.x / t := rfl
@[simp] theorem V2.div_y (t : K) (a : V2 K) : (V2.div a t).y = a.y / t := rfl
@[simp] theorem V3.div_x (t : K) (a : V3 K) : (V3.div a t).x = a.x / t := rfl
@[simp] theorem V3.div_y (t : K) (a : V3 K) : (V3.div a t).y = a.y / t := rfl
@[simp] theorem V3.div_z (t : K) (a : V3 K) : (V3.div a t).z = a.z / t := rfl

/-- `dot<2>` (`polytope_geometric_utilities.hh` L365-370). -/
def dot2 (a b : V2 K) : K := a.x * b.x + a.y * b.y
/-- `dot<3>` (L373-378). -/
def dot3 (a b : V3 K) : K := a.x * b.x + a.y * b.y + a.z * b.z
/-- The third component of `cross<2>` (L397-402). -/
def cross2 (a b : V2 K) : K := a.x * b.y - a.y * b.x
/-- `cross<3>` (L405-412). -/
def cross3 (a b : V3 K) : V3 K := ⟨a.y * b.z - a.z * b.y, a.z * b.x - a.x * b.z, a.x * b.y - a.y * b.x⟩

/-- `orient2d` of Shewchuk's predicates (declared L26, `predicates.cc`): the exact determinant. What floating point makes of it is in `Model/Predicates`
(C86). -/
def orient2d (a b c : V2 K) : K := (a.x - c.x) * (b.y - c.y) - (a.y - c.y) * (b.x - c.x)
end

/-- `distance<2>` (L288-296). -/
noncomputable def distance2 (a b : V2 ℝ) : ℝ := Real.sqrt ((a.x - b.x) * (a.x - b.x) + (a.y - b.y) * (a.y - b.y))
/-- `distance<3>` (L299-308). -/
noncomputable def distance3 (a b : V3 ℝ) : ℝ := Real.sqrt ((a.x - b.x) * (a.x - b.x) + (a.y - b.y) * (a.y - b.y) + (a.z - b.z) * (a.z - b.z))

/-- `unitVector<3>` (L339-347). -/
noncomputable def unitVector3 (a : V3 ℝ) : V3 ℝ := a.div (max (1 / 10 ^ 100) (Real.sqrt (dot3 a a)))

/-- `collinear<2>` of three points (L426-444). -/
noncomputable def collinear2 (a b c : V2 ℝ) (tol : ℝ) : Prop :=
  dot2 (b - a) (b - a) < tol ∨ dot2 (c - a) (c - a) < tol ∨
    |(|dot2 ((b - a).div (Real.sqrt (dot2 (b - a) (b - a)))) ((c - a).div (Real.sqrt (dot2 (c - a) (c - a))))|) - 1| < tol

/-- `collinear<3>` of three points (L426-444). -/
noncomputable def collinear3 (a b c : V3 ℝ) (tol : ℝ) : Prop :=
  dot3 (b - a) (b - a) < tol ∨ dot3 (c - a) (c - a) < tol ∨
    |(|dot3 ((b - a).div (Real.sqrt (dot3 (b - a) (b - a)))) ((c - a).div (Real.sqrt (dot3 (c - a) (c - a))))|) - 1| < tol

end Verif.Geom
