import Verif.Model.Circum
import Verif.Spec.Geom
import Mathlib.Tactic.Ring
import Mathlib.Tactic.FieldSimp
import Mathlib.Tactic.Linarith
import Mathlib.Tactic.Common
import Mathlib.Tactic.LinearCombination
import Mathlib.Algebra.Order.Field.Rat
import Mathlib.Algebra.Order.Ring.Unbundled.Rat
/- Property C26: circumcentres. -/
namespace Verif.Geom
open Verif
section
variable {K : Type} [Field K] [LinearOrder K] [IsStrictOrderedRing K]

/-- C62: the centroid of a triangle is two thirds along every median, and cuts the triangle into three of equal area. -/
theorem C62_triangle (A B C : V2 K) :
    triangleCentroid2d A B C = lerp2 A (lerp2 B C (1 / 2)) (2 / 3) ∧ triangleCentroid2d A B C = lerp2 B (lerp2 C A (1 / 2)) (2 / 3) ∧ triangleCentroid2d A B C = lerp2 C (lerp2 A B (1 / 2)) (2 / 3) ∧
    3 * area2 (triangleCentroid2d A B C) B C = area2 A B C ∧ 3 * area2 A (triangleCentroid2d A B C) C = area2 A B C ∧ 3 * area2 A B (triangleCentroid2d A B C) = area2 A B C := by
  have h3 : (3 : K) ≠ 0 := three_ne_zero
  simp only [triangleCentroid2d, lerp2, area2, V2.mk.injEq]
  refine ⟨⟨?_, ?_⟩, ⟨?_, ?_⟩, ⟨?_, ?_⟩, ?_, ?_, ?_⟩ <;> field_simp <;> ring

/-- C62: the centroid of a tetrahedron is three quarters along every median, and cuts the tetrahedron into four of equal volume. -/
theorem C62_tet (A B C D : V3 K) :
    (∀ P Q R S : V3 K, [P, Q, R, S].Perm [A, B, C, D] → tetCentroid A B C D = lerp3 P (lerp3 Q (lerp3 R S (1 / 2)) (2 / 3)) (3 / 4)) ∧
    4 * vol6 (tetCentroid A B C D) B C D = vol6 A B C D ∧ 4 * vol6 A (tetCentroid A B C D) C D = vol6 A B C D ∧
    4 * vol6 A B (tetCentroid A B C D) D = vol6 A B C D ∧ 4 * vol6 A B C (tetCentroid A B C D) = vol6 A B C D := by
  refine ⟨fun P Q R S h => ?_, ?_, ?_, ?_, ?_⟩
  · have hx := (h.map V3.x).sum_eq
    have hy := (h.map V3.y).sum_eq
    have hz := (h.map V3.z).sum_eq
    simp only [List.map_cons, List.map_nil, List.sum_cons, List.sum_nil] at hx hy hz
    simp only [tetCentroid, lerp3, V3.mk.injEq]
    refine ⟨?_, ?_, ?_⟩
    · linear_combination (-1 / 4) * hx
    · linear_combination (-1 / 4) * hy
    · linear_combination (-1 / 4) * hz
  all_goals simp only [tetCentroid, vol6]; ring

example : triangleCentroid2d (⟨0, 0⟩ : V2 ℚ) ⟨3, 0⟩ ⟨0, 6⟩ = ⟨1, 2⟩ ∧ tetCentroid (⟨0, 0, 0⟩ : V3 ℚ) ⟨4, 0, 0⟩ ⟨0, 8, 0⟩ ⟨0, 0, 12⟩ = ⟨1, 2, 3⟩ := by
  simp only [triangleCentroid2d, tetCentroid, V2.mk.injEq, V3.mk.injEq]; norm_num

/-- C26: `computeCircumcenter` of three points not on one line is equidistant from them. -/
theorem C26_circumcenter (A B C : V2 K) (h : area2 A B C ≠ 0) :
    sq2 (circumcenter A B C) A = sq2 (circumcenter A B C) B ∧ sq2 (circumcenter A B C) B = sq2 (circumcenter A B C) C := by
  have e : orient2d A B C = area2 A B C := by simp only [orient2d, area2]; ring
  have h2 : (2 : K) ≠ 0 := two_ne_zero
  have hD : 2 * area2 A B C ≠ 0 := mul_ne_zero h2 h
  have hx : (circumcenter A B C).x * (2 * area2 A B C) = orient2d ⟨A.x * A.x + A.y * A.y, A.y⟩ ⟨B.x * B.x + B.y * B.y, B.y⟩ ⟨C.x * C.x + C.y * C.y, C.y⟩ := by
    simp only [circumcenter, e]; exact div_mul_cancel₀ _ hD
  have hy : (circumcenter A B C).y * (2 * area2 A B C) = orient2d ⟨A.x, A.x * A.x + A.y * A.y⟩ ⟨B.x, B.x * B.x + B.y * B.y⟩ ⟨C.x, C.x * C.x + C.y * C.y⟩ := by
    simp only [circumcenter, e]; exact div_mul_cancel₀ _ hD
  generalize circumcenter A B C = X at hx hy
  simp only [orient2d, area2, sq2] at *
  constructor
  · apply mul_right_cancel₀ hD; linear_combination (2 * B.x - 2 * A.x) * hx + (2 * B.y - 2 * A.y) * hy
  · apply mul_right_cancel₀ hD; linear_combination (2 * C.x - 2 * B.x) * hx + (2 * C.y - 2 * B.y) * hy

/-- C26: `computeCircumcenter2d` of three points not on one line is equidistant from them. -/
theorem C26_circumcenter2d (A B C : V2 K) (h : area2 A B C ≠ 0) :
    sq2 (circumcenter2d A B C) A = sq2 (circumcenter2d A B C) B ∧ sq2 (circumcenter2d A B C) B = sq2 (circumcenter2d A B C) C := by
  have e : circumcenter2d A B C = circumcenter A B C := by
    simp only [circumcenter2d, circumcenter, orient2d]
    congr 1 <;> congr 1 <;> ring
  rw [e]; exact C26_circumcenter A B C h

/-- A vector solving the three perpendicular bisector equations. -/
theorem bisect3 (a b c : V3 K) (X Y Z den : K) (hd : den = 2 * dot3 a (cross3 b c)) (h : den ≠ 0)
    (hx : X = (dot3 a a * (cross3 b c).x + dot3 b b * (cross3 c a).x + dot3 c c * (cross3 a b).x) / den)
    (hy : Y = (dot3 a a * (cross3 b c).y + dot3 b b * (cross3 c a).y + dot3 c c * (cross3 a b).y) / den)
    (hz : Z = (dot3 a a * (cross3 b c).z + dot3 b b * (cross3 c a).z + dot3 c c * (cross3 a b).z) / den) :
    2 * (X * a.x + Y * a.y + Z * a.z) = dot3 a a ∧ 2 * (X * b.x + Y * b.y + Z * b.z) = dot3 b b ∧ 2 * (X * c.x + Y * c.y + Z * c.z) = dot3 c c := by
  rw [eq_div_iff h] at hx hy hz
  generalize dot3 a a = a2 at *
  generalize dot3 b b = b2 at *
  generalize dot3 c c = c2 at *
  simp only [cross3, dot3] at *
  refine ⟨?_, ?_, ?_⟩ <;> apply mul_right_cancel₀ h
  · linear_combination 2 * a.x * hx + 2 * a.y * hy + 2 * a.z * hz - a2 * hd
  · linear_combination 2 * b.x * hx + 2 * b.y * hy + 2 * b.z * hz - b2 * hd
  · linear_combination 2 * c.x * hx + 2 * c.y * hy + 2 * c.z * hz - c2 * hd

/-- C26: `computeCircumcenter3d` of four points not in one plane is defined in both builds and equidistant from them. -/
theorem C26_circumcenter3d (dbg : Bool) (A B C D : V3 K) (h : vol6 A B C D ≠ 0) : ∃ X, circumcenter3d dbg A B C D = .ok X ∧
    sq3 X A = sq3 X B ∧ sq3 X B = sq3 X C ∧ sq3 X C = sq3 X D := by
  have e : dot3 (B - A) (cross3 (C - A) (D - A)) = vol6 A B C D := by simp only [dot3, cross3, vol6, V3.sub_x, V3.sub_y, V3.sub_z]; ring
  have hD : 2 * dot3 (B - A) (cross3 (C - A) (D - A)) ≠ 0 := by rw [e]; exact mul_ne_zero two_ne_zero h
  refine ⟨_, by unfold circumcenter3d; dsimp only; rw [Res.assert_true dbg (by exact hD)]; rfl, ?_⟩
  obtain ⟨h1, h2, h3⟩ := bisect3 _ _ _ _ _ _ _ rfl hD rfl rfl rfl
  simp only [sq3]
  revert h1 h2 h3
  generalize (dot3 (B - A) (B - A) * (cross3 (C - A) (D - A)).x + dot3 (C - A) (C - A) * (cross3 (D - A) (B - A)).x + dot3 (D - A) (D - A) * (cross3 (B - A) (C - A)).x) / (2 * dot3 (B - A) (cross3 (C - A) (D - A))) = X
  generalize (dot3 (B - A) (B - A) * (cross3 (C - A) (D - A)).y + dot3 (C - A) (C - A) * (cross3 (D - A) (B - A)).y + dot3 (D - A) (D - A) * (cross3 (B - A) (C - A)).y) / (2 * dot3 (B - A) (cross3 (C - A) (D - A))) = Y
  generalize (dot3 (B - A) (B - A) * (cross3 (C - A) (D - A)).z + dot3 (C - A) (C - A) * (cross3 (D - A) (B - A)).z + dot3 (D - A) (D - A) * (cross3 (B - A) (C - A)).z) / (2 * dot3 (B - A) (cross3 (C - A) (D - A))) = Z
  intro h1 h2 h3
  simp only [dot3, V3.sub_x, V3.sub_y, V3.sub_z] at h1 h2 h3
  refine ⟨?_, ?_, ?_⟩
  · linear_combination h1
  · linear_combination h2 - h1
  · linear_combination h3 - h2

/-- C26: four points in one plane make a debug build abort. -/
theorem C26_circumcenter3d_flat (A B C D : V3 K) (h : vol6 A B C D = 0) : circumcenter3d true A B C D = .abort := by
  have e : dot3 (B - A) (cross3 (C - A) (D - A)) = vol6 A B C D := by simp only [dot3, cross3, vol6, V3.sub_x, V3.sub_y, V3.sub_z]; ring
  unfold circumcenter3d; dsimp only; rw [Res.assert_debug_false (by rw [e, h]; simp)]; rfl

end

theorem lagrange3 (u v : V3 ℝ) : dot3 (cross3 u v) (cross3 u v) = dot3 u u * dot3 v v - dot3 u v ^ 2 := by
  simp only [dot3, cross3]; ring

/-- If the points are not nearly collinear the triangle is not degenerate. -/
theorem not_collinear3 {A B C : V3 ℝ} {tol : ℝ} (ht : 0 < tol) (h : ¬ collinear3 A B C tol) : 0 < dot3 (cross3 (A - C) (B - C)) (cross3 (A - C) (B - C)) := by
  have e : dot3 (cross3 (A - C) (B - C)) (cross3 (A - C) (B - C)) = dot3 (cross3 (B - A) (C - A)) (cross3 (B - A) (C - A)) := by
    simp only [dot3, cross3, V3.sub_x, V3.sub_y, V3.sub_z]; ring
  rw [e, lagrange3]
  unfold collinear3 at h
  push Not at h
  obtain ⟨hu, hv, hw⟩ := h
  generalize B - A = u at *
  generalize C - A = v at *
  have hu0 : 0 < dot3 u u := lt_of_lt_of_le ht hu
  have hv0 : 0 < dot3 v v := lt_of_lt_of_le ht hv
  have su := Real.sqrt_pos.2 hu0
  have sv := Real.sqrt_pos.2 hv0
  have qu := Real.mul_self_sqrt hu0.le
  have qv := Real.mul_self_sqrt hv0.le
  have ed : dot3 (u.div (Real.sqrt (dot3 u u))) (v.div (Real.sqrt (dot3 v v))) = dot3 u v / (Real.sqrt (dot3 u u) * Real.sqrt (dot3 v v)) := by
    have e2 : dot3 (u.div (Real.sqrt (dot3 u u))) (v.div (Real.sqrt (dot3 v v))) * (Real.sqrt (dot3 u u) * Real.sqrt (dot3 v v)) = dot3 u v := by
      generalize Real.sqrt (dot3 u u) = s at *
      generalize Real.sqrt (dot3 v v) = t at *
      simp only [dot3, V3.div_x, V3.div_y, V3.div_z]
      field_simp
    rw [eq_div_iff (by positivity), e2]
  rw [ed] at hw
  have hcs : dot3 u v ^ 2 ≤ dot3 u u * dot3 v v := by
    have := lagrange3 u v
    have h0 : 0 ≤ dot3 (cross3 u v) (cross3 u v) := by simp only [dot3]; nlinarith [sq_nonneg (cross3 u v).x, sq_nonneg (cross3 u v).y, sq_nonneg (cross3 u v).z]
    linarith
  rcases hcs.lt_or_eq with hlt | heq
  · linarith
  · exfalso
    have : |dot3 u v / (Real.sqrt (dot3 u u) * Real.sqrt (dot3 v v))| = 1 := by
      rw [← sq_eq_sq₀ (abs_nonneg _) zero_le_one, sq_abs, div_pow, mul_pow, one_pow, Real.sq_sqrt hu0.le, Real.sq_sqrt hv0.le, heq]
      exact div_self (by positivity)
    rw [this] at hw
    simp at hw; linarith

/-- C26: `computeTriangleCircumcenter3d` never fails its assertion; if it returns a point, that point is equidistant from the three corners and in their plane; and it
returns none exactly when the library's own collinearity test with tolerance 1e-10 accepts the corners. -/
theorem C26_triangle3d_partial (dbg : Bool) (A B C : V3 ℝ) :
    (collinear3 A B C (1 / 10 ^ 10) ∧ triangleCircumcenter3d dbg A B C = .ok none) ∨
    (¬ collinear3 A B C (1 / 10 ^ 10) ∧ ¬ OnLine A B C ∧ ∃ X, triangleCircumcenter3d dbg A B C = .ok (some X) ∧ sq3 X A = sq3 X B ∧ sq3 X B = sq3 X C ∧ vol6 A B C X = 0) := by
  by_cases hc : collinear3 A B C (1 / 10 ^ 10)
  · exact Or.inl ⟨hc, by unfold triangleCircumcenter3d; rw [if_pos hc]⟩
  · have hd := not_collinear3 (by norm_num) hc
    have hD := hd.ne'
    refine Or.inr ⟨hc, ?_, _, by unfold triangleCircumcenter3d; rw [if_neg hc]; dsimp only; rw [Res.assert_true dbg (by exact hd)]; rfl, ?_⟩
    · rintro ⟨h1, h2, h3⟩
      apply hD
      have e : dot3 (cross3 (A - C) (B - C)) (cross3 (A - C) (B - C)) = dot3 (cross3 (B - A) (C - A)) (cross3 (B - A) (C - A)) := by
        simp only [dot3, cross3, V3.sub_x, V3.sub_y, V3.sub_z]; ring
      rw [e]
      have e1 : (cross3 (B - A) (C - A)) = ⟨0, 0, 0⟩ := by
        simp only [cross3, V3.sub_x, V3.sub_y, V3.sub_z, h1, h2, h3, sub_self]
      rw [e1]; simp [dot3]
    · generalize ha : A - C = a at *
      generalize hb : B - C = b at *
      have hA : A = a + C := by rw [← ha]; ext <;> simp
      have hB : B = b + C := by rw [← hb]; ext <;> simp
      subst hA hB
      generalize hdd : cross3 a b = d at *
      have hx := div_mul_cancel₀ (1 / 2 * (cross3 ⟨dot3 a a * b.x - dot3 b b * a.x, dot3 a a * b.y - dot3 b b * a.y, dot3 a a * b.z - dot3 b b * a.z⟩ d).x) hD
      have hy := div_mul_cancel₀ (1 / 2 * (cross3 ⟨dot3 a a * b.x - dot3 b b * a.x, dot3 a a * b.y - dot3 b b * a.y, dot3 a a * b.z - dot3 b b * a.z⟩ d).y) hD
      have hz := div_mul_cancel₀ (1 / 2 * (cross3 ⟨dot3 a a * b.x - dot3 b b * a.x, dot3 a a * b.y - dot3 b b * a.y, dot3 a a * b.z - dot3 b b * a.z⟩ d).z) hD
      revert hx hy hz
      generalize 1 / 2 * (cross3 ⟨dot3 a a * b.x - dot3 b b * a.x, dot3 a a * b.y - dot3 b b * a.y, dot3 a a * b.z - dot3 b b * a.z⟩ d).x / dot3 d d = X
      generalize 1 / 2 * (cross3 ⟨dot3 a a * b.x - dot3 b b * a.x, dot3 a a * b.y - dot3 b b * a.y, dot3 a a * b.z - dot3 b b * a.z⟩ d).y / dot3 d d = Y
      generalize 1 / 2 * (cross3 ⟨dot3 a a * b.x - dot3 b b * a.x, dot3 a a * b.y - dot3 b b * a.y, dot3 a a * b.z - dot3 b b * a.z⟩ d).z / dot3 d d = Z
      intro hx hy hz
      rw [← hdd] at hx hy hz hD
      simp only [sq3, vol6, V3.add_x, V3.add_y, V3.add_z]
      simp only [dot3, cross3] at hx hy hz hD
      refine ⟨?_, ?_, ?_⟩ <;> apply mul_right_cancel₀ hD
      · linear_combination (2 * b.x - 2 * a.x) * hx + (2 * b.y - 2 * a.y) * hy + (2 * b.z - 2 * a.z) * hz
      · linear_combination (-2 * b.x) * hx + (-2 * b.y) * hy + (-2 * b.z) * hz
      · linear_combination (a.y * b.z - a.z * b.y) * hx + (a.z * b.x - a.x * b.z) * hy + (a.x * b.y - a.y * b.x) * hz

/-- C26 fails for small triangles in space: the tolerance is absolute, so every triangle with a side at `A` shorter than 1e-5 is refused, whatever its shape. -/
theorem C26_tiny_triangle_fails (dbg : Bool) (A B C : V3 ℝ) (h : sq3 A B < 1 / 10 ^ 10 ∨ sq3 A C < 1 / 10 ^ 10) : triangleCircumcenter3d dbg A B C = .ok none := by
  unfold triangleCircumcenter3d
  rw [if_pos]
  unfold collinear3
  rcases h with h | h
  · left; convert h using 1; simp only [dot3, sq3, V3.sub_x, V3.sub_y, V3.sub_z]; ring
  · right; left; convert h using 1; simp only [dot3, sq3, V3.sub_x, V3.sub_y, V3.sub_z]; ring

-- Concrete cases: a right triangle, a tetrahedron, a small equilateral-like triangle that is refused.
example : area2 (⟨0, 0⟩ : V2 ℚ) ⟨4, 0⟩ ⟨0, 2⟩ ≠ 0 ∧ circumcenter (⟨0, 0⟩ : V2 ℚ) ⟨4, 0⟩ ⟨0, 2⟩ = ⟨2, 1⟩ := by decide +kernel
example : vol6 (⟨0, 0, 0⟩ : V3 ℚ) ⟨2, 0, 0⟩ ⟨0, 4, 0⟩ ⟨0, 0, 6⟩ ≠ 0 ∧ circumcenter3d true (⟨0, 0, 0⟩ : V3 ℚ) ⟨2, 0, 0⟩ ⟨0, 4, 0⟩ ⟨0, 0, 6⟩ = .ok ⟨1, 2, 3⟩ := by decide +kernel
example : sq3 (⟨0, 0, 0⟩ : V3 ℝ) ⟨1 / 10 ^ 6, 0, 0⟩ < 1 / 10 ^ 10 ∧ ¬ OnLine (⟨0, 0, 0⟩ : V3 ℝ) ⟨1 / 10 ^ 6, 0, 0⟩ ⟨0, 1 / 10 ^ 6, 0⟩ := by
  constructor
  · norm_num [sq3]
  · norm_num [OnLine]
example : ¬ collinear3 (⟨0, 0, 0⟩ : V3 ℝ) ⟨1, 0, 0⟩ ⟨0, 1, 0⟩ (1 / 10 ^ 10) := by
  unfold collinear3; norm_num [dot3]

end Verif.Geom
