import Mathlib.Data.Real.Basic
import Mathlib.Tactic.Linarith
import Mathlib.Tactic.LinearCombination
import Mathlib.Tactic.Positivity
/- Why the centres of the triangles with a generator are inside the frame of guards. -/
namespace Verif.Tri

/-- The frame is the square with side `S` at the origin, `(px, py)` is a point near its middle, and three points on the right side, near the middle and near both ends, are not nearer to `(x, y)` than
`(px, py)`. Then `(x, y)` is not to the right of the frame. -/
theorem inside_frame {S px py m t x y : ℝ} (hS : 0 < S) (hx0 : 0.39 * S ≤ px) (hx1 : px ≤ 0.61 * S) (hy0 : 0.39 * S ≤ py) (hy1 : py ≤ 0.61 * S) (hm0 : 0.49 * S ≤ m) (hm1 : m ≤ 0.51 * S)
    (ht0 : 0.99 * S ≤ t) (ht1 : t ≤ S) (g0 : (x - px) ^ 2 + (y - py) ^ 2 ≤ (x - S) ^ 2 + (y - 0) ^ 2) (g1 : (x - px) ^ 2 + (y - py) ^ 2 ≤ (x - S) ^ 2 + (y - m) ^ 2)
    (g2 : (x - px) ^ 2 + (y - py) ^ 2 ≤ (x - S) ^ 2 + (y - t) ^ 2) : x ≤ S := by
  by_contra hc
  push Not at hc
  have hA : 0.1521 * S ^ 2 < (S - px) * (2 * x - px - S) := by
    have h1 : 0.39 * S ≤ S - px := by linarith
    have h2 : 0.39 * S < 2 * x - px - S := by linarith
    have := mul_lt_mul' h1 h2 (by positivity) (by linarith)
    linarith
  have e0 : 0.1521 * S ^ 2 < py * (2 * y - py) := by linarith
  have e1 : 0.1521 * S ^ 2 < (m - py) * (m - (2 * y - py)) := by linarith
  have e2 : 0.1521 * S ^ 2 < (t - py) * (t - (2 * y - py)) := by linarith
  generalize 2 * y - py = z at e0 e1 e2
  have hz0 : 0.249 * S < z := by
    by_contra h
    push Not at h
    have h1 : py * z ≤ py * (0.249 * S) := mul_le_mul_of_nonneg_left h (by linarith)
    have h2 : py * (0.249 * S) ≤ 0.61 * S * (0.249 * S) := mul_le_mul_of_nonneg_right hy1 (by positivity)
    nlinarith [sq_nonneg S]
  have hz1 : z < 0.751 * S := by
    by_contra h
    push Not at h
    have h1 : (t - py) * (t - z) ≤ (t - py) * (0.249 * S) := mul_le_mul_of_nonneg_left (by linarith) (by linarith)
    have h2 : (t - py) * (0.249 * S) ≤ 0.61 * S * (0.249 * S) := mul_le_mul_of_nonneg_right (by linarith) (by positivity)
    nlinarith [sq_nonneg S]
  have h1 : |m - py| ≤ 0.12 * S := by rw [abs_le]; constructor <;> linarith
  have h2 : |m - z| ≤ 0.262 * S := by rw [abs_le]; constructor <;> linarith
  have h3 := mul_le_mul h1 h2 (abs_nonneg _) (by positivity)
  rw [← abs_mul] at h3
  have h4 := le_abs_self ((m - py) * (m - z))
  nlinarith [sq_nonneg S]
end Verif.Tri
