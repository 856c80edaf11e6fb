import Mathlib.Data.Rat.Floor
/-
Binary floating point numbers with significands of `p` bits and exponents of any size, and rounding to the nearest of
them.
-/
namespace Verif.Float

/-- `x` is a floating point number of `p` bits: an integer of at most `p` bits times a power of two. -/
def IsFloat (p : ℕ) (x : ℚ) : Prop := ∃ m e : ℤ, |m| < 2 ^ p ∧ x = m * 2 ^ e

/-- `rnd x` is always a floating point number, and none is nearer to `x`. -/
structure ToNearest (p : ℕ) (rnd : ℚ → ℚ) : Prop where
  float : ∀ x, IsFloat p (rnd x)
  nearest : ∀ x f, IsFloat p f → |rnd x - x| ≤ |f - x|

/-- Rounding to nearest that goes to the even significand when `x` is in the middle between two numbers (the default of
IEEE 754). -/
structure ToEven (p : ℕ) (rnd : ℚ → ℚ) : Prop extends ToNearest p rnd where
  ties : ∀ x f, IsFloat p f → f ≠ rnd x → |f - x| = |rnd x - x| →
    ∃ m e : ℤ, 2 ^ (p - 1) ≤ |m| ∧ |m| < 2 ^ p ∧ Even m ∧ rnd x = m * 2 ^ e

/-- `x` is a multiple of `2 ^ e`. -/
def Grid (e : ℤ) (x : ℚ) : Prop := ∃ m : ℤ, x = m * 2 ^ e

/-- `a` is at most half of a power of two that divides `b`: the two have no bits in the same place. -/
def Below (a b : ℚ) : Prop := ∃ t : ℤ, |a| ≤ 2 ^ t ∧ Grid (t + 1) b

/-- `a` is less than half of a power of two that divides `b`: there is an empty place between them. -/
def Far (a b : ℚ) : Prop := ∃ t : ℤ, |a| < 2 ^ t ∧ Grid (t + 1) b

/-- Twice the signed area of the triangle `a b c`: positive when it is counter-clockwise, zero when the points are on
one line. -/
def orientation (a b c : ℚ × ℚ) : ℚ := (a.1 - c.1) * (b.2 - c.2) - (a.2 - c.2) * (b.1 - c.1)

/-- `x` has the sign of `y`. -/
def SameSign (x y : ℚ) : Prop := (0 < x ↔ 0 < y) ∧ (x < 0 ↔ y < 0)

end Verif.Float
