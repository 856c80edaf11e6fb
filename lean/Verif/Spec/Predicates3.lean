import Verif.Spec.Float
/-
What `orient3d`, `incircle` and `insphere` are about, over the rationals.
-/
namespace Verif.Float

/-- A point in space. -/
abbrev Point3 := ℚ × ℚ × ℚ

/-- `(a - d) · ((b - d) × (c - d))`, six times the signed volume of the tetrahedron `a b c d`: positive when `d` is below the
plane through `a`, `b` and `c`, where these three are in counter-clockwise order seen from above; zero when the four are in one
plane. -/
def orientation3 (a b c d : Point3) : ℚ :=
  (a.1 - d.1) * ((b.2.1 - d.2.1) * (c.2.2 - d.2.2) - (b.2.2 - d.2.2) * (c.2.1 - d.2.1))
  + (a.2.1 - d.2.1) * ((b.2.2 - d.2.2) * (c.1 - d.1) - (b.1 - d.1) * (c.2.2 - d.2.2))
  + (a.2.2 - d.2.2) * ((b.1 - d.1) * (c.2.1 - d.2.1) - (b.2.1 - d.2.1) * (c.1 - d.1))

/-- The sum of the absolute values of the six products of which `orientation3` is the sum. -/
def volume3 (a b c d : Point3) : ℚ :=
  |a.1 - d.1| * (|b.2.1 - d.2.1| * |c.2.2 - d.2.2| + |b.2.2 - d.2.2| * |c.2.1 - d.2.1|)
  + |a.2.1 - d.2.1| * (|b.2.2 - d.2.2| * |c.1 - d.1| + |b.1 - d.1| * |c.2.2 - d.2.2|)
  + |a.2.2 - d.2.2| * (|b.1 - d.1| * |c.2.1 - d.2.1| + |b.2.1 - d.2.1| * |c.1 - d.1|)

/-- The square of the distance in the plane. -/
def dist2 (a b : ℚ × ℚ) : ℚ := (a.1 - b.1) ^ 2 + (a.2 - b.2) ^ 2

/-- The square of the distance in space. -/
def dist3 (a b : Point3) : ℚ := (a.1 - b.1) ^ 2 + (a.2.1 - b.2.1) ^ 2 + (a.2.2 - b.2.2) ^ 2

/-- The sum of the products of `incircle` with their absolute values: the squared distances from `d` times the two products in
the orientation of the other two points and `d`. -/
def size2 (a b c d : ℚ × ℚ) : ℚ :=
  let m (u v : ℚ × ℚ) := |u.1 - d.1| * |v.2 - d.2| + |v.1 - d.1| * |u.2 - d.2|
  dist2 a d * m b c + dist2 b d * m c a + dist2 c d * m a b

/-- The same for `insphere`. -/
def size3 (a b c d e : Point3) : ℚ :=
  dist3 a e * volume3 b c d e + dist3 b e * volume3 c d a e + dist3 c e * volume3 d a b e + dist3 d e * volume3 a b c e

/-- `a` is a point of the lattice of step `2 ^ k` whose coordinates are at most `2 ^ m` steps from zero. -/
def OnLattice (m : ℕ) (k : ℤ) (a : Point3) : Prop :=
  ∃ i j l : ℤ, |i| ≤ 2 ^ m ∧ |j| ≤ 2 ^ m ∧ |l| ≤ 2 ^ m ∧ a = ((i : ℚ) * 2 ^ k, (j : ℚ) * 2 ^ k, (l : ℚ) * 2 ^ k)

/-- The coordinates are floating point numbers. -/
def FloatPt3 (p : ℕ) (a : Point3) : Prop := IsFloat p a.1 ∧ IsFloat p a.2.1 ∧ IsFloat p a.2.2

/-- The subtraction of `d` from `a` needs no rounding. -/
def ExactDiff (p : ℕ) (a d : Point3) : Prop := FloatPt3 p (a.1 - d.1, a.2.1 - d.2.1, a.2.2 - d.2.2)

end Verif.Float
