import Verif.Proofs.Crossing
import Verif.Props.Polygon
/- C31 and C59 for polygons of any shape: the answer is given by the sides that lie between the point and the outside. -/
namespace Verif.Geom
open Verif Verif.Mesh
variable {K : Type} [Field K] [LinearOrder K] [IsStrictOrderedRing K]

/-- Along any segment that crosses the sides it meets, the answer changes once with every side. -/
theorem C31_crossings {vs : List (V2 K)} {p q : V2 K} (h : ∀ e ∈ dirSides vs, Misses p q e ∨ Crosses p q e) :
    pointInPolygon p vs ≠ pointInPolygon q vs ↔ Odd (crossed vs p q) := by
  have := pip_crossed h
  rw [← decide_eq_true_iff (p := Odd _), ← this]
  simp

/-- So it is the same at all the points of a region that no side enters. -/
theorem C31_region {vs : List (V2 K)} {p q : V2 K} (h : ∀ e ∈ dirSides vs, Misses p q e) : pointInPolygon p vs = pointInPolygon q vs := by
  by_contra hn
  have := (C31_crossings fun e he => Or.inl (h e he)).1 hn
  have h0 : crossed vs p q = 0 := by
    unfold crossed
    rw [List.countP_eq_zero]
    intro e he
    simpa using fun hc => cross_meets hc (h e he)
  rw [h0] at this
  exact absurd this (by decide)

/-- A polygon of any shape: the point is inside if an odd number of sides is between it and a point beyond all the corners, in any direction, and such a direction exists for every point that is not on a side. -/
theorem C31_even_odd {vs : List (V2 K)} {p : V2 K} (hp : ¬ OnBoundary vs p) :
    (∀ q, Beyond vs q → (∀ e ∈ dirSides vs, Misses p q e ∨ Crosses p q e) → (pointInPolygon p vs = true ↔ Odd (crossed vs p q))) ∧
    ∃ q, Beyond vs q ∧ ∀ e ∈ dirSides vs, Misses p q e ∨ Crosses p q e := by
  refine ⟨fun q hq h => ?_, exists_far hp⟩
  rw [← C31_crossings h, pip_beyond hq]
  simp

theorem pip_in {vs : List (V2 K)} {p : V2 K} (hp : ¬ OnBoundary vs p) : pointInPolygon p vs = true ↔ EvenOddIn vs p := by
  obtain ⟨h1, q, hq, hc⟩ := C31_even_odd hp
  constructor
  · exact fun h => ⟨q, hq, hc, (h1 q hq hc).1 h⟩
  · rintro ⟨q', hq', hc', ho⟩
    exact (h1 q' hq' hc').2 ho

/-- `within` for loops of any shape, away from the boundary by more than its tolerance: inside the outer loop and in no hole. -/
theorem C59_shape_partial {verts : List ℝ} {plc : PLC} {outer : Nat × Nat} {holes : List (Nat × Nat)} (hp : LoopPLC verts plc outer holes) {p : V2 ℝ}
    (hc : ∀ l ∈ outer :: holes, ClearOf (corners verts l.1 l.2) p) :
    ∃ b, within verts p plc = .ok b ∧ (b = true ↔ EvenOddIn (corners verts outer.1 outer.2) p ∧ ∀ l ∈ holes, ¬ EvenOddIn (corners verts l.1 l.2) p) := by
  obtain ⟨b, hb, hi⟩ := within_ok hp p
  refine ⟨b, hb, hi.trans ?_⟩
  have off : ∀ l ∈ outer :: holes, ¬ OnBoundary (corners verts l.1 l.2) p := by
    rintro l hl ⟨e, he, hs⟩
    have h1 := hc l hl e he p hs
    have h2 : sq2 p p = 0 := by unfold sq2; ring
    have h3 : (0 : ℝ) ≤ 2 / 10 ^ 10 * max 1 (sq2 e.1 e.2) := mul_nonneg (by norm_num) (le_trans zero_le_one (le_max_left _ _))
    linarith
  have e1 := clear_off (hc outer (by simp))
  rw [e1, pip_in (off outer (by simp))]
  simp only [Bool.false_eq_true, false_or]
  refine and_congr_right fun _ => forall₂_congr fun l hl => ?_
  rw [clear_off (hc l (by simp [hl])), ← pip_in (off l (by simp [hl]))]
  simp

/-- An arrow head, which is not convex: the point `(2, 1)` of the notch is outside, `(2, 3)` is inside. From both, up and out. -/
def arrow : List (V2 ℚ) := [⟨0, 0⟩, ⟨2, 2⟩, ⟨4, 0⟩, ⟨2, 4⟩]

theorem above_misses {u v p q : V2 ℚ} (h : 0 < area2 p q u * area2 p q v ∨ 0 < area2 u v p * area2 u v q) : Misses p q (u, v) :=
  h.elim misses_of_same fun h => misses_swap (misses_of_same h)

example : (∀ e ∈ dirSides arrow, Misses (⟨2, 3⟩ : V2 ℚ) ⟨3, 9⟩ e ∨ Crosses ⟨2, 3⟩ ⟨3, 9⟩ e) ∧ Beyond arrow ⟨3, 9⟩ ∧ crossed arrow ⟨2, 3⟩ ⟨3, 9⟩ = 1 ∧ pointInPolygon ⟨2, 3⟩ arrow = true ∧
    (∀ e ∈ dirSides arrow, Misses (⟨2, 1⟩ : V2 ℚ) ⟨3, 9⟩ e ∨ Crosses ⟨2, 1⟩ ⟨3, 9⟩ e) ∧ crossed arrow ⟨2, 1⟩ ⟨3, 9⟩ = 2 ∧ pointInPolygon ⟨2, 1⟩ arrow = false := by
  have key : ∀ p q : V2 ℚ, (∀ e ∈ dirSides arrow, (0 < area2 p q e.1 * area2 p q e.2 ∨ 0 < area2 e.1 e.2 p * area2 e.1 e.2 q) ∨ Crosses p q e) →
      ∀ e ∈ dirSides arrow, Misses p q e ∨ Crosses p q e := fun p q h e he => (h e he).imp_left above_misses
  refine ⟨key _ _ (by decide +kernel), Or.inr (Or.inr (Or.inl (by decide +kernel))), by decide +kernel, by decide +kernel, key _ _ (by decide +kernel), by decide +kernel, by decide +kernel⟩

/-- A boundary that is not convex. -/
example : LoopPLC [0, 0, 2, 2, 4, 0, 2, 4] ⟨[[0, 1], [1, 2], [2, 3], [3, 0]], []⟩ (0, 4) [] := ⟨by decide, by decide, by simp⟩
example : ClearOf (corners [0, 0, 2, 2, 4, 0, 2, 4] 0 4) (⟨2, 3⟩ : V2 ℝ) := by
  have hv : corners [0, 0, 2, 2, 4, 0, 2, 4] 0 4 = ([⟨0, 0⟩, ⟨2, 2⟩, ⟨4, 0⟩, ⟨2, 4⟩] : List (V2 ℝ)) := rfl
  have hd : dirSides ([⟨0, 0⟩, ⟨2, 2⟩, ⟨4, 0⟩, ⟨2, 4⟩] : List (V2 ℝ)) = [(⟨0, 0⟩, ⟨2, 2⟩), (⟨2, 2⟩, ⟨4, 0⟩), (⟨4, 0⟩, ⟨2, 4⟩), (⟨2, 4⟩, ⟨0, 0⟩)] := by simp [dirSides]
  rw [hv]
  intro e he q hq
  rw [hd] at he
  simp only [List.mem_cons, List.not_mem_nil, or_false] at he
  have hm : max 1 (sq2 e.1 e.2) ≤ 100 := by
    rcases he with rfl | rfl | rfl | rfl <;> simp only [sq2] <;> norm_num
  have hb : (1 : ℝ) / 10 ≤ sq2 (⟨2, 3⟩ : V2 ℝ) q := by
    obtain ⟨t, -, -, rfl⟩ := hq
    rcases he with rfl | rfl | rfl | rfl <;> simp only [sq2, lerp2]
    · nlinarith [sq_nonneg (4 * t - 5 / 2)]
    · nlinarith [sq_nonneg (4 * t + 1 / 2), sq_nonneg t]
    · nlinarith [sq_nonneg (10 * t - 8)]
    · nlinarith [sq_nonneg (10 * t - 2)]
  nlinarith
example : ¬ ConvexCCW arrow := fun h => by
  have := h.2 ⟨0, 0⟩ ⟨2, 2⟩ ⟨4, 0⟩ (by decide)
  exact absurd this (by decide +kernel)
end Verif.Geom
