import Mathlib.Data.Real.Basic
import Mathlib.Algebra.BigOperators.Fin
/- What is expected of a box with an integer grid in it. A point is a function of its axis. -/
namespace Verif.QC
variable {d : Nat}

/-- `p` is in the closed box. -/
def Inside (low high p : Fin d → ℝ) : Prop := ∀ j, low j ≤ p j ∧ p j ≤ high j

/-- `p` is in the box and on none of its sides. -/
def Interior (low high p : Fin d → ℝ) : Prop := ∀ j, low j < p j ∧ p j < high j

/-- The list `l` holds the coordinates of the point `p`. -/
def Holds (l : List ℝ) (p : Fin d → ℝ) : Prop := ∀ j : Fin d, l[j.val]? = some (p j)

/-- Squared distance. -/
def dist2 (p q : Fin d → ℝ) : ℝ := ∑ j, (p j - q j) ^ 2

/-- The ball of radius `r` about `c` is in the closed box. -/
def BallIn (low high c : Fin d → ℝ) (r : ℝ) : Prop := ∀ p, dist2 p c ≤ r ^ 2 → Inside low high p

/-- The integers `k` name the point of the grid with origin `low` and spacing `delta` nearest to `p`, up to `delta/2` in each coordinate, and are in the range 0 to `top`. -/
def OnGrid (low : Fin d → ℝ) (delta : ℝ) (top : Int) (p : Fin d → ℝ) (k : Fin d → Int) : Prop :=
  ∀ j, 0 ≤ k j ∧ k j ≤ top ∧ |low j + (k j : ℝ) * delta - p j| ≤ delta / 2
end Verif.QC
