import Verif.Model.Vec
import Verif.Spec.Geom
import Mathlib.Tactic.Linarith
import Mathlib.Tactic.LinearCombination
import Mathlib.Tactic.Positivity
import Mathlib.Tactic.FieldSimp
/- Vectors that go around the origin, and the region of the points nearest to a point. -/
namespace Verif.Tri
open Verif Verif.Geom

/-- Something that happens at one place of a cycle and not at another changes somewhere. -/
theorem cycle_change {Q : ℤ → Prop} {N : ℕ} (hN : 0 < N) (hper : ∀ k, Q (k + N) ↔ Q k) {i j : ℤ} (hi : Q i) (hj : ¬ Q j) : ∃ k, Q k ∧ ¬ Q (k + 1) := by
  by_contra hc
  push Not at hc
  have step : ∀ n : ℕ, Q (i + n) := by
    intro n
    induction n with
    | zero => simpa using hi
    | succ n ih =>
      have := hc _ ih
      rwa [add_assoc] at this
  have mul : ∀ (n : ℕ) (k : ℤ), Q (k + n * N) ↔ Q k := by
    intro n
    induction n with
    | zero => intro k; simp
    | succ n ih =>
      intro k
      rw [show k + ((n + 1 : ℕ) : ℤ) * N = (k + n * N) + N by push_cast; ring, hper, ih]
  -- some copy of `j` comes after `i`
  have hN' : (1 : ℤ) ≤ N := by exact_mod_cast hN
  have hge : i ≤ j + ((i - j).toNat : ℤ) * N := by
    by_cases hij : i ≤ j
    · have : (0 : ℤ) ≤ ((i - j).toNat : ℤ) * N := by positivity
      linarith
    · rw [Int.toNat_of_nonneg (by omega)]
      have : (i - j) * 1 ≤ (i - j) * N := mul_le_mul_of_nonneg_left hN' (by omega)
      linarith
  apply hj
  rw [← mul (i - j).toNat j]
  obtain ⟨n, hn⟩ := Int.eq_ofNat_of_zero_le (sub_nonneg.2 hge)
  have := step n
  rwa [← hn, add_sub_cancel] at this

/-- A function cannot grow all the way around a cycle. -/
theorem cycle_grow {r : ℤ → ℝ} {N : ℕ} (hN : 0 < N) (hper : ∀ k, r (k + N) = r k) (h : ∀ k, r k < r (k + 1)) : False := by
  have step : ∀ n : ℕ, r 0 < r ((n : ℤ) + 1) := by
    intro n
    induction n with
    | zero => simpa using h 0
    | succ n ih =>
      have := h ((n : ℤ) + 1)
      push_cast
      linarith
  have := step (N - 1)
  rw [show ((N - 1 : ℕ) : ℤ) + 1 = 0 + (N : ℤ) by omega, hper] at this
  exact lt_irrefl _ this

/-- Vectors each to the left of the one before, all the way around, are not in one half plane. -/
theorem no_halfplane {ex ey : ℤ → ℝ} {N : ℕ} (hN : 0 < N) (hx : ∀ k, ex (k + N) = ex k) (hy : ∀ k, ey (k + N) = ey k) (hcr : ∀ k, 0 < ex k * ey (k + 1) - ey k * ex (k + 1)) {ux uy : ℝ}
    (hu : 0 < ux * ux + uy * uy) (h : ∀ k, 0 ≤ ux * ex k + uy * ey k) : False := by
  have hid : ∀ k, 0 < (ux * ex k + uy * ey k) * (ux * ey (k + 1) - uy * ex (k + 1)) - (ux * ey k - uy * ex k) * (ux * ex (k + 1) + uy * ey (k + 1)) := by
    intro k
    have := mul_pos hu (hcr k)
    linarith
  have hpos : ∀ k, 0 < ux * ex k + uy * ey k := by
    intro k
    refine lt_of_le_of_ne (h k) fun h0 => ?_
    have h1 := hid k
    have h2 := hid (k - 1)
    rw [show k - 1 + 1 = k by ring, ← h0] at h2
    rw [← h0] at h1
    have h3 := h (k + 1)
    have h4 := h (k - 1)
    have h5 : 0 < ux * ey k - uy * ex k := by
      by_contra hc
      push Not at hc
      nlinarith
    nlinarith
  refine cycle_grow (r := fun k => (ux * ey k - uy * ex k) / (ux * ex k + uy * ey k)) hN ?_ ?_
  · intro k; simp only [hx, hy]
  · intro k
    rw [div_lt_div_iff₀ (hpos k) (hpos (k + 1))]
    have := hid k
    linarith

theorem cramer {ax ay bx bY wx wy : ℝ} (h : ax * bY - ay * bx ≠ 0) : wx = (wx * bY - wy * bx) / (ax * bY - ay * bx) * ax + (ax * wy - ay * wx) / (ax * bY - ay * bx) * bx ∧
    wy = (wx * bY - wy * bx) / (ax * bY - ay * bx) * ay + (ax * wy - ay * wx) / (ax * bY - ay * bx) * bY := by
  constructor <;> rw [div_mul_eq_mul_div, div_mul_eq_mul_div, ← add_div, eq_div_iff h] <;> ring

/-- Going around, they come past every direction. -/
theorem cone {ex ey : ℤ → ℝ} {N : ℕ} (hN : 0 < N) (hx : ∀ k, ex (k + N) = ex k) (hy : ∀ k, ey (k + N) = ey k) (hcr : ∀ k, 0 < ex k * ey (k + 1) - ey k * ex (k + 1)) (wx wy : ℝ)
    (hw : 0 < wx * wx + wy * wy) : ∃ k a b, 0 ≤ a ∧ 0 ≤ b ∧ wx = a * ex k + b * ex (k + 1) ∧ wy = a * ey k + b * ey (k + 1) := by
  have h1 : ∃ k, 0 ≤ ex k * wy - ey k * wx := by
    by_contra hc
    push Not at hc
    exact no_halfplane hN hx hy hcr (ux := -wy) (uy := wx) (by linarith) fun k => by have := hc k; linarith
  have h2 : ∃ k, ¬ 0 ≤ ex k * wy - ey k * wx := by
    by_contra hc
    push Not at hc
    exact no_halfplane hN hx hy hcr (ux := wy) (uy := -wx) (by linarith) fun k => by have := hc k; linarith
  obtain ⟨i, hi⟩ := h1
  obtain ⟨j, hj⟩ := h2
  obtain ⟨k, h3, h4⟩ := cycle_change (Q := fun k => 0 ≤ ex k * wy - ey k * wx) hN (fun k => by simp only [hx, hy]) hi hj
  push Not at h4
  have hD := hcr k
  refine ⟨k, (wx * ey (k + 1) - wy * ex (k + 1)) / (ex k * ey (k + 1) - ey k * ex (k + 1)), (ex k * wy - ey k * wx) / (ex k * ey (k + 1) - ey k * ex (k + 1)), ?_, div_nonneg h3 hD.le, ?_, ?_⟩
  · exact div_nonneg (by linarith) hD.le
  · exact (cramer hD.ne').1
  · exact (cramer hD.ne').2

/-- The points `g` go around `p`, and `c k` is the centre of the triangle of `p`, `g k` and `g (k+1)`; no point of `S` is nearer to `c k` than `p`. The points to which no point of `S` is nearer than `p`
are those in the triangles of `p`, `c k` and `c (k+1)`. -/
theorem region {S : List (V2 ℝ)} {p : V2 ℝ} {g c : ℤ → V2 ℝ} {N : ℕ} (hN : 0 < N) (hg : ∀ k, g (k + N) = g k) (hc : ∀ k, c (k + N) = c k) (hcr : ∀ k, 0 < area2 p (g k) (g (k + 1)))
    (h1 : ∀ k, sq2 (c k) p = sq2 (c k) (g k)) (h2 : ∀ k, sq2 (c k) p = sq2 (c k) (g (k + 1))) (hS : ∀ k, g k ∈ S) (hE : ∀ k, ∀ P ∈ S, sq2 (c k) p ≤ sq2 (c k) P) (Y : V2 ℝ) :
    (∀ P ∈ S, sq2 Y p ≤ sq2 Y P) ↔ ∃ k a b, 0 ≤ a ∧ 0 ≤ b ∧ a + b ≤ 1 ∧ Y.x = p.x + a * ((c k).x - p.x) + b * ((c (k + 1)).x - p.x) ∧ Y.y = p.y + a * ((c k).y - p.y) + b * ((c (k + 1)).y - p.y) := by
  constructor
  · intro hY
    -- vectors from `p`
    set ex : ℤ → ℝ := fun k => (g k).x - p.x with hex
    set ey : ℤ → ℝ := fun k => (g k).y - p.y with hey
    set dx : ℤ → ℝ := fun k => (c k).x - p.x with hdx
    set dy : ℤ → ℝ := fun k => (c k).y - p.y with hdy
    set yx := Y.x - p.x with hyx
    set yy := Y.y - p.y with hyy
    have kx : ∀ k, ex (k + N) = ex k := fun k => by simp only [hex, hg]
    have ky : ∀ k, ey (k + N) = ey k := fun k => by simp only [hey, hg]
    have cx : ∀ k, dx (k + N) = dx k := fun k => by simp only [hdx, hc]
    have cy : ∀ k, dy (k + N) = dy k := fun k => by simp only [hdy, hc]
    have cross : ∀ k, 0 < ex k * ey (k + 1) - ey k * ex (k + 1) := fun k => by have := hcr k; unfold area2 at this; simp only [hex, hey]; linarith
    have d1 : ∀ k, 2 * (dx k * ex k + dy k * ey k) = ex k * ex k + ey k * ey k := fun k => by have := h1 k; unfold sq2 at this; simp only [hex, hey, hdx, hdy]; linarith
    have d2 : ∀ k, 2 * (dx k * ex (k + 1) + dy k * ey (k + 1)) = ex (k + 1) * ex (k + 1) + ey (k + 1) * ey (k + 1) := fun k => by
      have := h2 k; unfold sq2 at this; simp only [hex, hey, hdx, hdy]; linarith
    have d3 : ∀ k j, 2 * (dx k * ex j + dy k * ey j) ≤ ex j * ex j + ey j * ey j := fun k j => by
      have := hE k _ (hS j); unfold sq2 at this; simp only [hex, hey, hdx, hdy]; linarith
    have y3 : ∀ j, 2 * (yx * ex j + yy * ey j) ≤ ex j * ex j + ey j * ey j := fun j => by
      have := hY _ (hS j); unfold sq2 at this; simp only [hex, hey, hyx, hyy]; linarith
    have epos : ∀ k, 0 < ex k * ex k + ey k * ey k := by
      intro k
      by_contra hcon
      have h0 : ex k * ex k + ey k * ey k = 0 := le_antisymm (not_lt.1 hcon) (add_nonneg (mul_self_nonneg _) (mul_self_nonneg _))
      have hx0 : ex k = 0 := by have := mul_self_nonneg (ey k); have := mul_self_nonneg (ex k); exact mul_self_eq_zero.1 (by linarith)
      have hy0 : ey k = 0 := by have := mul_self_nonneg (ey k); have := mul_self_nonneg (ex k); exact mul_self_eq_zero.1 (by linarith)
      have := cross k
      rw [hx0, hy0] at this
      linarith
    by_cases hz : yx * yx + yy * yy = 0
    · have hx0 : yx = 0 := by have := mul_self_nonneg yx; have := mul_self_nonneg yy; exact mul_self_eq_zero.1 (by linarith)
      have hy0 : yy = 0 := by have := mul_self_nonneg yx; have := mul_self_nonneg yy; exact mul_self_eq_zero.1 (by linarith)
      exact ⟨0, 0, 0, le_refl _, le_refl _, by norm_num, by linarith, by linarith⟩
    have hz' : 0 < yx * yx + yy * yy := lt_of_le_of_ne (add_nonneg (mul_self_nonneg _) (mul_self_nonneg _)) (Ne.symm hz)
    -- every open half plane has a centre
    have dneg : ∀ ux uy : ℝ, 0 < ux * ux + uy * uy → ∃ k, 0 < ux * dx k + uy * dy k := by
      intro ux uy hu
      obtain ⟨k, a, b, ha, hb, hux, huy⟩ := cone hN kx ky cross ux uy hu
      refine ⟨k, ?_⟩
      have e : 2 * (ux * dx k + uy * dy k) = a * (ex k * ex k + ey k * ey k) + b * (ex (k + 1) * ex (k + 1) + ey (k + 1) * ey (k + 1)) := by
        rw [hux, huy]; linear_combination a * d1 k + b * d2 k
      have p1 := mul_nonneg ha (epos k).le
      have p2 := mul_nonneg hb (epos (k + 1)).le
      rcases lt_or_eq_of_le ha with h | h
      · have := mul_pos h (epos k); linarith
      · rcases lt_or_eq_of_le hb with h' | h'
        · have := mul_pos h' (epos (k + 1)); linarith
        · exfalso; rw [hux, huy, ← h, ← h'] at hu; linarith
    obtain ⟨i, hi⟩ := dneg yy (-yx) (by linarith)
    obtain ⟨j, hj⟩ := dneg (-yy) yx (by linarith)
    obtain ⟨k, h3, h4⟩ := cycle_change (Q := fun k => 0 ≤ dx k * yy - dy k * yx) hN (fun k => by simp only [cx, cy]) (i := i) (j := j) (by linarith) (by push Not; linarith)
    push Not at h4
    -- consecutive centres turn left
    have hturn : 0 ≤ dx k * dy (k + 1) - dy k * dx (k + 1) ∧ (dx k * dy (k + 1) - dy k * dx (k + 1) = 0 → dx (k + 1) = dx k ∧ dy (k + 1) = dy k) := by
      -- the difference is a multiple of the normal of the bisector
      have ep := epos (k + 1)
      have hl : (dx (k + 1) - dx k) * ex (k + 1) + (dy (k + 1) - dy k) * ey (k + 1) = 0 := by have := d2 k; have := d1 (k + 1); linarith
      set l := (dy (k + 1) - dy k) * ex (k + 1) - (dx (k + 1) - dx k) * ey (k + 1) with hldef
      have l1 : (dx (k + 1) - dx k) * (ex (k + 1) * ex (k + 1) + ey (k + 1) * ey (k + 1)) = - l * ey (k + 1) := by rw [hldef]; linear_combination ex (k + 1) * hl
      have l2 : (dy (k + 1) - dy k) * (ex (k + 1) * ex (k + 1) + ey (k + 1) * ey (k + 1)) = l * ex (k + 1) := by rw [hldef]; linear_combination ey (k + 1) * hl
      have l3 : (dx (k + 1) - dx k) * ex k + (dy (k + 1) - dy k) * ey k ≤ 0 := by have := d3 (k + 1) k; have := d1 k; linarith
      have l4 : l * (ex k * ey (k + 1) - ey k * ex (k + 1)) ≥ 0 := by
        have : ((dx (k + 1) - dx k) * ex k + (dy (k + 1) - dy k) * ey k) * (ex (k + 1) * ex (k + 1) + ey (k + 1) * ey (k + 1)) = - (l * (ex k * ey (k + 1) - ey k * ex (k + 1))) := by
          linear_combination ex k * l1 + ey k * l2
        have := mul_nonpos_of_nonpos_of_nonneg l3 ep.le
        linarith
      have l5 : 0 ≤ l := by
        by_contra hneg
        have := mul_neg_of_neg_of_pos (not_le.1 hneg) (cross k)
        linarith
      have l6 : (dx k * dy (k + 1) - dy k * dx (k + 1)) * (ex (k + 1) * ex (k + 1) + ey (k + 1) * ey (k + 1)) = l * ((ex (k + 1) * ex (k + 1) + ey (k + 1) * ey (k + 1)) / 2) := by
        linear_combination dx k * l2 - dy k * l1 + (l / 2) * d2 k
      constructor
      · by_contra hneg
        have h7 := mul_neg_of_neg_of_pos (not_le.1 hneg) ep
        have h8 : 0 ≤ l * ((ex (k + 1) * ex (k + 1) + ey (k + 1) * ey (k + 1)) / 2) := mul_nonneg l5 (by linarith)
        linarith
      · intro h0
        rw [h0, zero_mul] at l6
        have l0 : l = 0 := by
          rcases mul_eq_zero.1 l6.symm with h | h
          · exact h
          · exfalso; linarith
        rw [l0] at l1 l2
        constructor
        · have : dx (k + 1) - dx k = 0 := by
            rcases mul_eq_zero.1 (l1.trans (by ring : -(0 : ℝ) * ey (k + 1) = 0)) with h | h
            · exact h
            · exfalso; linarith
          linarith
        · have : dy (k + 1) - dy k = 0 := by
            rcases mul_eq_zero.1 (l2.trans (by ring : (0 : ℝ) * ex (k + 1) = 0)) with h | h
            · exact h
            · exfalso; linarith
          linarith
    have hD : 0 < dx k * dy (k + 1) - dy k * dx (k + 1) := by
      refine lt_of_le_of_ne hturn.1 fun h0 => ?_
      obtain ⟨q1, q2⟩ := hturn.2 h0.symm
      rw [q1, q2] at h4
      linarith
    set a := (yx * dy (k + 1) - yy * dx (k + 1)) / (dx k * dy (k + 1) - dy k * dx (k + 1)) with ha
    set b := (dx k * yy - dy k * yx) / (dx k * dy (k + 1) - dy k * dx (k + 1)) with hb
    have a0 : 0 ≤ a := div_nonneg (by linarith) hD.le
    have b0 : 0 ≤ b := div_nonneg h3 hD.le
    have ax : yx = a * dx k + b * dx (k + 1) := (cramer hD.ne').1
    have ay : yy = a * dy k + b * dy (k + 1) := (cramer hD.ne').2
    refine ⟨k, a, b, a0, b0, ?_, by linarith, by linarith⟩
    have hy := y3 (k + 1)
    have e : 2 * (yx * ex (k + 1) + yy * ey (k + 1)) = (a + b) * (ex (k + 1) * ex (k + 1) + ey (k + 1) * ey (k + 1)) := by
      rw [ax, ay]; linear_combination a * d2 k + b * d1 (k + 1)
    rw [e] at hy
    have ep := epos (k + 1)
    by_contra hcon
    have := mul_lt_mul_of_pos_right (not_le.1 hcon) ep
    linarith
  · rintro ⟨k, a, b, ha, hb, hab, hx, hy⟩ P hP
    have e1 := hE k P hP
    have e2 := hE (k + 1) P hP
    unfold sq2 at e1 e2 ⊢
    rw [hx, hy]
    have m1 := mul_le_mul_of_nonneg_left e1 ha
    have m2 := mul_le_mul_of_nonneg_left e2 hb
    have m3 : 0 ≤ (1 - a - b) * ((P.x - p.x) ^ 2 + (P.y - p.y) ^ 2) := mul_nonneg (by linarith) (add_nonneg (sq_nonneg _) (sq_nonneg _))
    nlinarith
end Verif.Tri
