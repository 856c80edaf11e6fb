import Verif.Proofs.CannedGeom
import Mathlib.Analysis.Real.Pi.Bounds
/- The points of spheres. -/
namespace Verif.Canned
open Verif Verif.Geom Verif.Hull3

/-- The angle of ring number `j`. -/
noncomputable def polar (n j : Nat) : ℝ := ((j : ℝ) + 1 / 2) * (Real.pi / n)

/-- The number of points on ring number `j`. -/
noncomputable def ringN (n j : Nat) : Nat := max 1 ⌊2 * n * Real.sin (polar n j) + 1 / 2⌋.toNat

theorem polar_pos {n j : Nat} (hn : 0 < n) : 0 < polar n j := by
  have hn0 : (0 : ℝ) < n := by exact_mod_cast hn
  have := Real.pi_pos
  unfold polar; positivity

theorem polar_lt {n j : Nat} (hj : j < n) : polar n j < Real.pi := by
  have hn0 : (0 : ℝ) < n := by exact_mod_cast (by omega : 0 < n)
  have h1 : (j : ℝ) + 1 ≤ n := by exact_mod_cast hj
  have := Real.pi_pos
  unfold polar
  calc ((j : ℝ) + 1 / 2) * (Real.pi / n) < n * (Real.pi / n) := mul_lt_mul_of_pos_right (by linarith) (by positivity)
    _ = Real.pi := by field_simp

/-- The sine of the angle of a ring. -/
theorem sin_polar {n j : Nat} (hj : j < n) : 1 / (n : ℝ) ≤ Real.sin (polar n j) := by
  have hn0 : (0 : ℝ) < n := by exact_mod_cast (by omega : 0 < n)
  have hpi := Real.pi_pos
  have hge : ∀ t : ℝ, Real.pi / n / 2 ≤ t → t ≤ Real.pi / 2 → 1 / (n : ℝ) ≤ Real.sin t := by
    intro t h1 h2
    have h3 : 0 ≤ t := le_trans (by positivity) h1
    refine le_trans ?_ (Real.mul_le_sin h3 h2)
    calc 1 / (n : ℝ) = 2 / Real.pi * (Real.pi / n / 2) := by field_simp
      _ ≤ _ := mul_le_mul_of_nonneg_left h1 (by positivity)
  have hd : 0 < Real.pi / n := by positivity
  have hj0 : (0 : ℝ) ≤ j := Nat.cast_nonneg _
  have hj1 : (j : ℝ) + 1 ≤ n := by exact_mod_cast hj
  rcases le_total (polar n j) (Real.pi / 2) with h | h
  · refine hge _ ?_ h
    unfold polar; nlinarith
  · rw [← Real.sin_pi_sub]
    apply hge
    · have e : Real.pi - polar n j = (n - j - 1 / 2) * (Real.pi / n) := by unfold polar; field_simp; ring
      rw [e]; nlinarith
    · linarith

theorem ringSize_ok {radius : ℝ} (hr : radius ≠ 0) {n j : Nat} (hj : j < n) (hn : n < 2 ^ 31) : ringSize radius (Real.pi / n) (polar n j) = .ok (ringN n j) := by
  have hn0 : (0 : ℝ) < n := by exact_mod_cast (by omega : 0 < n)
  have hpi := Real.pi_pos
  unfold ringSize
  have hdl : radius * (Real.pi / n) ≠ 0 := mul_ne_zero hr (by positivity)
  have e : 2 * Real.pi * (radius * Real.sin (polar n j)) / (radius * (Real.pi / n)) = 2 * n * Real.sin (polar n j) := by field_simp
  simp only [if_neg hdl, e]
  have hs := sin_polar hj
  have hs1 := Real.sin_le_one (polar n j)
  have hs0 : 0 ≤ Real.sin (polar n j) := le_trans (by positivity) hs
  rw [if_pos]
  · rfl
  · constructor
    · rw [Int.le_floor]; push_cast; positivity
    · rw [Int.floor_lt]
      have : (n : ℝ) + 1 ≤ 2 ^ 31 := by exact_mod_cast hn
      push_cast
      nlinarith

theorem spherePoints_ok {c : V3 ℝ} {radius : ℝ} (hr : radius ≠ 0) {n : Nat} (hn : n < 2 ^ 31) : ∀ {l : List Nat}, (∀ j ∈ l, j < n) →
    spherePoints c radius n l = .ok (l.flatMap fun j => ringPoints c radius (polar n j) (ringN n j)) := by
  intro l
  induction l with
  | nil => intro _; rfl
  | cons j l ih =>
    intro h
    rw [spherePoints]
    have h1 : ringSize radius (Real.pi / n) (((j : ℝ) + 1 / 2) * (Real.pi / n)) = .ok (ringN n j) := ringSize_ok hr (h j List.mem_cons_self) hn
    simp only [h1, Res.ok_bind, ih fun k hk => h k (List.mem_cons_of_mem _ hk)]
    rfl

/-- All the points. -/
noncomputable def sphereList (c : V3 ℝ) (radius : ℝ) (n : Nat) : List (V3 ℝ) := (List.range n).flatMap fun j => ringPoints c radius (polar n j) (ringN n j)

theorem mem_sphereList {c : V3 ℝ} {radius : ℝ} {n : Nat} {p : V3 ℝ} : p ∈ sphereList c radius n ↔ ∃ j < n, ∃ i < ringN n j,
    p = ⟨c.x + radius * Real.cos (angle (ringN n j) i) * Real.sin (polar n j), c.y + radius * Real.sin (angle (ringN n j) i) * Real.sin (polar n j), c.z + radius * Real.cos (polar n j)⟩ := by
  simp only [sphereList, ringPoints, List.mem_flatMap, List.mem_range, List.mem_map]
  constructor
  · rintro ⟨j, hj, i, hi, rfl⟩; exact ⟨j, hj, i, hi, rfl⟩
  · rintro ⟨j, hj, i, hi, rfl⟩; exact ⟨j, hj, i, hi, rfl⟩

theorem sphere_on {c : V3 ℝ} {radius : ℝ} {n : Nat} {p : V3 ℝ} (hp : p ∈ sphereList c radius n) : (p.x - c.x) ^ 2 + (p.y - c.y) ^ 2 + (p.z - c.z) ^ 2 = radius ^ 2 := by
  obtain ⟨j, _, i, _, rfl⟩ := mem_sphereList.1 hp
  have h1 := Real.cos_sq_add_sin_sq (angle (ringN n j) i)
  have h2 := Real.cos_sq_add_sin_sq (polar n j)
  simp only [add_sub_cancel_left]
  have e : ∀ a b s t r : ℝ, (r * a * s) ^ 2 + (r * b * s) ^ 2 + (r * t) ^ 2 = r ^ 2 * ((a ^ 2 + b ^ 2) * s ^ 2 + t ^ 2) := by intros; ring
  rw [e, h1, one_mul, add_comm, h2, mul_one]

theorem ball_convex (c : V3 ℝ) (radius : ℝ) : ∀ x ∈ ball c radius, ∀ y ∈ ball c radius, ∀ a b : ℝ, 0 ≤ a → 0 ≤ b → a + b = 1 →
    (⟨a * x.x + b * y.x, a * x.y + b * y.y, a * x.z + b * y.z⟩ : V3 ℝ) ∈ ball c radius := by
  intro x hx y hy a b ha hb hab
  obtain rfl : b = 1 - a := by linarith
  unfold ball at hx hy ⊢
  simp only [Set.mem_setOf_eq] at hx hy ⊢
  have e : (a * x.x + (1 - a) * y.x - c.x) ^ 2 + (a * x.y + (1 - a) * y.y - c.y) ^ 2 + (a * x.z + (1 - a) * y.z - c.z) ^ 2 =
      a * ((x.x - c.x) ^ 2 + (x.y - c.y) ^ 2 + (x.z - c.z) ^ 2) + (1 - a) * ((y.x - c.x) ^ 2 + (y.y - c.y) ^ 2 + (y.z - c.z) ^ 2) -
        a * (1 - a) * ((x.x - y.x) ^ 2 + (x.y - y.y) ^ 2 + (x.z - y.z) ^ 2) := by ring
  have h1 := mul_le_mul_of_nonneg_left hx ha
  have h2 := mul_le_mul_of_nonneg_left hy hb
  have h3 : 0 ≤ a * (1 - a) * ((x.x - y.x) ^ 2 + (x.y - y.y) ^ 2 + (x.z - y.z) ^ 2) := by positivity
  rw [e]; linarith

theorem sphere_range {c : V3 ℝ} {radius big : ℝ} (hr : 0 ≤ radius) {n : Nat} (hx : |c.x| + radius ≤ big) (hy : |c.y| + radius ≤ big) (hz : |c.z| + radius ≤ big) : InRange3 big (sphereList c radius n) := by
  intro p hp
  have h := sphere_on hp
  have key : ∀ t u : ℝ, (t - u) ^ 2 ≤ radius ^ 2 → |u| + radius ≤ big → |t| ≤ big := by
    intro t u h1 h2
    have := abs_le_of_sq_le_sq h1 hr
    calc |t| = |u + (t - u)| := by ring_nf
      _ ≤ |u| + |t - u| := abs_add_le _ _
      _ ≤ _ := by linarith
  refine ⟨key _ c.x ?_ hx, key _ c.y ?_ hy, key _ c.z ?_ hz⟩
  · nlinarith [sq_nonneg (p.y - c.y), sq_nonneg (p.z - c.z)]
  · nlinarith [sq_nonneg (p.x - c.x), sq_nonneg (p.z - c.z)]
  · nlinarith [sq_nonneg (p.y - c.y), sq_nonneg (p.x - c.x)]

/-! ### Rings -/

/-- The number of points of a ring in terms of its length. -/
theorem ringN_ge {n j : Nat} (hj : j < n) : 3 / 2 * (n * Real.sin (polar n j)) ≤ ringN n j := by
  have hn0 : (0 : ℝ) < n := by exact_mod_cast (by omega : 0 < n)
  have hs := sin_polar hj
  rw [div_le_iff₀ hn0] at hs
  have h1 := Int.lt_floor_add_one (2 * n * Real.sin (polar n j) + 1 / 2)
  have h0 : 0 ≤ ⌊2 * n * Real.sin (polar n j) + 1 / 2⌋ := by
    rw [Int.le_floor]; push_cast; nlinarith
  have h2 : ((⌊2 * n * Real.sin (polar n j) + 1 / 2⌋ : ℤ) : ℝ) ≤ ringN n j := by
    have : ⌊2 * n * Real.sin (polar n j) + 1 / 2⌋ ≤ (ringN n j : ℤ) := by unfold ringN; omega
    exact_mod_cast this
  nlinarith

theorem ringN_pos (n j : Nat) : 1 ≤ ringN n j := le_max_left _ _

/-- The first ring has three points or more. -/
theorem ringN_zero {n : Nat} (hn : 2 ≤ n) : 3 ≤ ringN n 0 := by
  have hn0 : (0 : ℝ) < n := by exact_mod_cast (by omega : 0 < n)
  have hn2 : (2 : ℝ) ≤ n := by exact_mod_cast hn
  have hpi := Real.pi_pos
  have h3 := Real.pi_gt_three
  have h4 := Real.pi_lt_d2
  set x : ℝ := Real.pi / 2 / n with hx
  have hpol : polar n 0 = x := by unfold polar; push_cast; rw [hx]; ring
  have hx0 : 0 < x := by positivity
  have hxn : x * n = Real.pi / 2 := by rw [hx]; field_simp
  have hx1 : x ≤ 1 := by
    have : x * 2 ≤ x * n := mul_le_mul_of_nonneg_left hn2 hx0.le
    nlinarith
  have hsin := Real.sin_gt_sub_cube hx0
  have key : 5 / 2 ≤ 2 * n * Real.sin x := by
    have h5 : x ^ 2 ≤ 5 / 8 := by
      have h6 : x ≤ 0.7875 := by
        have : x * 2 ≤ x * n := mul_le_mul_of_nonneg_left hn2 hx0.le
        nlinarith
      nlinarith
    have h7 : (x - x ^ 3 / 6) * n = Real.pi / 2 * (1 - x ^ 2 / 6) := by
      have : (x - x ^ 3 / 6) * n = (x * n) * (1 - x ^ 2 / 6) := by ring
      rw [this, hxn]
    have h8 : (x - x ^ 3 / 6) * n ≤ Real.sin x * n := mul_le_mul_of_nonneg_right hsin.le hn0.le
    nlinarith
  have : (3 : ℤ) ≤ ⌊2 * n * Real.sin (polar n 0) + 1 / 2⌋ := by
    rw [Int.le_floor, hpol]; push_cast; linarith
  unfold ringN
  omega

theorem sphere_notFlat {c : V3 ℝ} {radius : ℝ} (hr : radius ≠ 0) {n : Nat} (hn : 2 ≤ n) : NotFlat (sphereList c radius n) := by
  have h3 := ringN_zero hn
  refine ⟨_, mem_sphereList.2 ⟨0, by omega, 0, by omega, rfl⟩, _, mem_sphereList.2 ⟨0, by omega, 1, by omega, rfl⟩, _, mem_sphereList.2 ⟨0, by omega, 2, by omega, rfl⟩,
    _, mem_sphereList.2 ⟨1, by omega, 0, ringN_pos n 1, rfl⟩, ?_⟩
  have h := ring_area h3
  have hn0 : (0 : ℝ) < n := by exact_mod_cast (by omega : 0 < n)
  have hs : Real.sin (polar n 0) ≠ 0 := (lt_of_lt_of_le (by positivity) (sin_polar (by omega : 0 < n))).ne'
  have hz : Real.cos (polar n 1) - Real.cos (polar n 0) ≠ 0 := by
    have hlt : polar n 0 < polar n 1 := by
      unfold polar
      have := Real.pi_pos
      exact mul_lt_mul_of_pos_right (by norm_num) (by positivity)
    have := Real.cos_lt_cos_of_nonneg_of_le_pi (polar_pos (by omega : 0 < n)).le (polar_lt (by omega : 1 < n)).le hlt
    exact (sub_neg.2 this).ne
  generalize ringN n 0 = m at *
  simp only [vol6]
  have e : ∀ c0 s0 c1 s1 c2 s2 s t x y t1 r : ℝ, (c.x + r * c1 * s - (c.x + r * c0 * s)) * ((c.y + r * s2 * s - (c.y + r * s0 * s)) * (c.z + r * t1 - (c.z + r * t)) - (c.z + r * t - (c.z + r * t)) * (y - (c.y + r * s0 * s))) -
      (c.y + r * s1 * s - (c.y + r * s0 * s)) * ((c.x + r * c2 * s - (c.x + r * c0 * s)) * (c.z + r * t1 - (c.z + r * t)) - (c.z + r * t - (c.z + r * t)) * (x - (c.x + r * c0 * s))) +
      (c.z + r * t - (c.z + r * t)) * ((c.x + r * c2 * s - (c.x + r * c0 * s)) * (y - (c.y + r * s0 * s)) - (c.y + r * s2 * s - (c.y + r * s0 * s)) * (x - (c.x + r * c0 * s))) =
      r ^ 3 * s ^ 2 * (t1 - t) * ((c1 - c0) * (s2 - s0) - (s1 - s0) * (c2 - c0)) := by intros; ring
  rw [e]
  exact mul_ne_zero (mul_ne_zero (mul_ne_zero (pow_ne_zero _ hr) (pow_ne_zero _ hs)) hz) h

/-! ### The ball inside -/

theorem one_sub_cos (x : ℝ) : 1 - Real.cos x ≤ x ^ 2 / 2 := by
  have := Real.one_sub_sq_div_two_le_cos (x := x); linarith

/-- A direction of space. -/
theorem exists_spherical (v : V3 ℝ) : ∃ φ ψ ρ : ℝ, 0 ≤ φ ∧ φ ≤ Real.pi ∧ 0 ≤ ρ ∧ v.x = ρ * (Real.sin φ * Real.cos ψ) ∧ v.y = ρ * (Real.sin φ * Real.sin ψ) ∧ v.z = ρ * Real.cos φ := by
  obtain ⟨ψ, e1, e2⟩ := exists_polar v.x v.y
  obtain ⟨σ, hσ⟩ : ∃ σ : ℝ, σ = Real.sqrt (v.x ^ 2 + v.y ^ 2) := ⟨_, rfl⟩
  rw [← hσ] at e1 e2
  have hσ0 : 0 ≤ σ := hσ ▸ Real.sqrt_nonneg _
  have hz := Complex.norm_mul_cos_arg ⟨v.z, σ⟩
  have hs := Complex.norm_mul_sin_arg ⟨v.z, σ⟩
  have hz' : ‖(⟨v.z, σ⟩ : ℂ)‖ * Real.cos (Complex.arg ⟨v.z, σ⟩) = v.z := hz
  have hs' : ‖(⟨v.z, σ⟩ : ℂ)‖ * Real.sin (Complex.arg ⟨v.z, σ⟩) = σ := hs
  refine ⟨Complex.arg ⟨v.z, σ⟩, ψ, ‖(⟨v.z, σ⟩ : ℂ)‖, Complex.arg_nonneg_iff.2 hσ0, Complex.arg_le_pi _, norm_nonneg _, ?_, ?_, hz'.symm⟩
  · rw [← mul_assoc, hs', ← e1]
  · rw [← mul_assoc, hs', ← e2]

/-- Some ring is near to any direction. -/
theorem near_ring {n : Nat} (hn : 1 ≤ n) {φ : ℝ} (h0 : 0 ≤ φ) (h1 : φ ≤ Real.pi) : ∃ j < n, |φ - polar n j| ≤ Real.pi / n / 2 := by
  have hn0 : (0 : ℝ) < n := by exact_mod_cast hn
  have hpi := Real.pi_pos
  set d : ℝ := Real.pi / n with hd
  have hd0 : 0 < d := by positivity
  have hdn : n * d = Real.pi := by rw [hd]; field_simp
  by_cases hlast : φ / d < n
  · refine ⟨⌊φ / d⌋₊, (Nat.floor_lt (by positivity)).2 hlast, ?_⟩
    have a1 := Nat.floor_le (show 0 ≤ φ / d by positivity)
    have a2 := Nat.lt_floor_add_one (φ / d)
    rw [le_div_iff₀ hd0] at a1
    rw [div_lt_iff₀ hd0] at a2
    unfold polar
    rw [← hd, abs_le]
    constructor <;> nlinarith
  · refine ⟨n - 1, by omega, ?_⟩
    rw [not_lt, le_div_iff₀ hd0, hdn] at hlast
    have hφ : φ = Real.pi := le_antisymm h1 hlast
    unfold polar
    rw [← hd, hφ, Nat.cast_sub hn, ← hdn, abs_le]
    push_cast
    constructor <;> nlinarith

set_option maxHeartbeats 1000000 in
theorem sphere_support {c : V3 ℝ} {radius : ℝ} (hr : 0 ≤ radius) {n : Nat} (hn : 3 ≤ n) {x : V3 ℝ} (hx : x ∈ ball c (radius * (1 - 7 / n ^ 2))) (v : V3 ℝ) :
    ∃ p ∈ sphereList c radius n, dot3 v x ≤ dot3 v p := by
  have hn0 : (0 : ℝ) < n := by exact_mod_cast (by omega : 0 < n)
  have hn3 : (3 : ℝ) ≤ n := by exact_mod_cast hn
  have hpi := Real.pi_pos
  have hpi2 := Real.pi_lt_d2
  obtain ⟨φ, ψ, ρ, h0, h1, hρ, e1, e2, e3⟩ := exists_spherical v
  obtain ⟨j, hj, hnear⟩ := near_ring (by omega : 1 ≤ n) h0 h1
  obtain ⟨i, hi, hnear2⟩ := near_angle (ringN_pos n j) ψ
  refine ⟨_, mem_sphereList.2 ⟨j, hj, i, hi, rfl⟩, ?_⟩
  have hm := ringN_ge hj
  have hs := sin_polar hj
  have hm0 : (0 : ℝ) < ringN n j := by exact_mod_cast (ringN_pos n j : 0 < ringN n j)
  generalize (ringN n j : ℝ) = m at *
  generalize hth : angle (ringN n j) i = θ at *
  obtain ⟨s, hsd⟩ : ∃ s : ℝ, s = Real.sin (polar n j) := ⟨_, rfl⟩
  rw [← hsd] at hm hs
  have hs0 : 0 < s := lt_of_lt_of_le (by positivity) hs
  have hns : 1 ≤ n * s := by rw [div_le_iff₀ hn0] at hs; linarith
  -- the sine of the direction
  have hφs : Real.sin φ ≤ (1 + Real.pi / 2) * s := by
    have a1 : Real.sin φ - Real.sin (polar n j) ≤ |φ - polar n j| := by
      refine (le_abs_self _).trans ?_
      exact Real.abs_sin_sub_sin_le _ _
    rw [← hsd] at a1
    have a2 : Real.pi / n / 2 ≤ Real.pi / 2 * s := by
      calc Real.pi / n / 2 = Real.pi / 2 * (1 / n) := by ring
        _ ≤ _ := mul_le_mul_of_nonneg_left hs (by positivity)
    nlinarith
  have hφ0 : 0 ≤ Real.sin φ := Real.sin_nonneg_of_nonneg_of_le_pi h0 h1
  have hnearest : 1 - Real.cos (ψ - θ) ≤ (Real.pi / m) ^ 2 / 2 := by linarith [one_sub_cos (Real.pi / m)]
  have hpol : 1 - Real.cos (φ - polar n j) ≤ (Real.pi / n / 2) ^ 2 / 2 := by
    refine (one_sub_cos _).trans ?_
    have := sq_le_sq' (by linarith [neg_le_of_abs_le hnear]) (le_of_abs_le hnear)
    linarith
  -- the loss
  have hloss : s * Real.sin φ * (1 - Real.cos (ψ - θ)) ≤ 5.7 / n ^ 2 := by
    have a1 : s * Real.sin φ * (1 - Real.cos (ψ - θ)) ≤ s * ((1 + Real.pi / 2) * s) * ((Real.pi / m) ^ 2 / 2) :=
      mul_le_mul (mul_le_mul_of_nonneg_left hφs hs0.le) hnearest (by linarith [Real.cos_le_one (ψ - θ)]) (by positivity)
    refine a1.trans ?_
    rw [le_div_iff₀ (by positivity)]
    have hm2 : (3 / 2 * (n * s)) ^ 2 ≤ m ^ 2 := pow_le_pow_left₀ (by positivity) hm 2
    have e : s * ((1 + Real.pi / 2) * s) * ((Real.pi / m) ^ 2 / 2) * n ^ 2 = ((1 + Real.pi / 2) * Real.pi ^ 2 / 2) * (n * s) ^ 2 / m ^ 2 := by field_simp
    rw [e, div_le_iff₀ (by positivity)]
    have hc : (1 + Real.pi / 2) * Real.pi ^ 2 / 2 ≤ 5.7 * 9 / 4 := by
      have q1 : Real.pi ^ 2 ≤ 9.9225 := by nlinarith
      have q2 : 1 + Real.pi / 2 ≤ 2.575 := by linarith
      have := mul_le_mul q2 q1 (by positivity) (by norm_num)
      linarith
    calc (1 + Real.pi / 2) * Real.pi ^ 2 / 2 * (n * s) ^ 2 ≤ 5.7 * 9 / 4 * (n * s) ^ 2 := mul_le_mul_of_nonneg_right hc (by positivity)
      _ = 5.7 * (3 / 2 * (n * s)) ^ 2 := by ring
      _ ≤ _ := mul_le_mul_of_nonneg_left hm2 (by norm_num)
  have hloss2 : (Real.pi / n / 2) ^ 2 / 2 ≤ 1.3 / n ^ 2 := by
    rw [le_div_iff₀ (by positivity)]
    have e : (Real.pi / n / 2) ^ 2 / 2 * n ^ 2 = Real.pi ^ 2 / 8 := by field_simp; ring
    rw [e]; nlinarith
  have hcos : 1 - 7 / (n : ℝ) ^ 2 ≤ s * Real.sin φ * Real.cos (ψ - θ) + Real.cos φ * Real.cos (polar n j) := by
    rw [Real.cos_sub φ, ← hsd] at hpol
    have : 7 / (n : ℝ) ^ 2 = 5.7 / n ^ 2 + 1.3 / n ^ 2 := by ring
    nlinarith
  -- the point
  have hk0 : 0 ≤ 1 - 7 / (n : ℝ) ^ 2 := by
    rw [sub_nonneg, div_le_one (by positivity)]; nlinarith
  have hx' : (x.x - c.x) * (Real.sin φ * Real.cos ψ) + (x.y - c.y) * (Real.sin φ * Real.sin ψ) + (x.z - c.z) * Real.cos φ ≤ radius * (1 - 7 / n ^ 2) := by
    have hxb : (x.x - c.x) ^ 2 + (x.y - c.y) ^ 2 + (x.z - c.z) ^ 2 ≤ (radius * (1 - 7 / n ^ 2)) ^ 2 := hx
    refine (le_abs_self _).trans (abs_le_of_sq_le_sq (le_trans ?_ hxb) (mul_nonneg hr hk0))
    generalize x.x - c.x = a, x.y - c.y = b, x.z - c.z = d
    have u1 := Real.cos_sq_add_sin_sq ψ
    have u2 := Real.cos_sq_add_sin_sq φ
    obtain ⟨P, hP⟩ : ∃ P : ℝ, P = Real.sin φ * Real.cos ψ := ⟨_, rfl⟩
    obtain ⟨Q, hQ⟩ : ∃ Q : ℝ, Q = Real.sin φ * Real.sin ψ := ⟨_, rfl⟩
    obtain ⟨T, hT⟩ : ∃ T : ℝ, T = Real.cos φ := ⟨_, rfl⟩
    rw [← hP, ← hQ, ← hT]
    have hunit : P ^ 2 + Q ^ 2 + T ^ 2 = 1 := by
      rw [hP, hQ, hT]
      have : (Real.sin φ * Real.cos ψ) ^ 2 + (Real.sin φ * Real.sin ψ) ^ 2 + Real.cos φ ^ 2 = Real.sin φ ^ 2 * (Real.cos ψ ^ 2 + Real.sin ψ ^ 2) + Real.cos φ ^ 2 := by ring
      rw [this, u1, mul_one, add_comm, u2]
    have e : (a * P + b * Q + d * T) ^ 2 = (a ^ 2 + b ^ 2 + d ^ 2) * (P ^ 2 + Q ^ 2 + T ^ 2) - ((a * Q - b * P) ^ 2 + (a * T - d * P) ^ 2 + (b * T - d * Q) ^ 2) := by ring
    rw [e, hunit, mul_one]
    have := sq_nonneg (a * Q - b * P)
    have := sq_nonneg (a * T - d * P)
    have := sq_nonneg (b * T - d * Q)
    linarith
  have hfin := mul_le_mul_of_nonneg_left (hx'.trans (mul_le_mul_of_nonneg_left hcos hr)) hρ
  simp only [dot3]
  rw [e1, e2, e3]
  rw [Real.cos_sub ψ] at hfin
  rw [hsd] at hfin
  linarith

/-! ### The last point -/

theorem sphere_last {c : V3 ℝ} {radius : ℝ} (hr : radius ≠ 0) {n : Nat} (hn : 1 ≤ n) :
    ∃ q, (sphereList c radius n).getLast? = some q ∧ coords q ∉ convexHull ℝ {x | ∃ p ∈ (sphereList c radius n).dropLast, x = coords p} := by
  obtain ⟨m, rfl⟩ : ∃ m, n = m + 1 := ⟨n - 1, by omega⟩
  obtain ⟨k, hk⟩ : ∃ k, ringN (m + 1) m = k + 1 := ⟨ringN (m + 1) m - 1, by have := ringN_pos (m + 1) m; omega⟩
  have hr2 : 0 < radius ^ 2 := by positivity
  have hn0 : (0 : ℝ) < ((m + 1 : ℕ) : ℝ) := by exact_mod_cast Nat.succ_pos m
  set Φ := polar (m + 1) m with hΦ
  set Θ := angle (k + 1) k with hΘ
  have hsplit : sphereList c radius (m + 1) =
      ((List.range m).flatMap (fun j => ringPoints c radius (polar (m + 1) j) (ringN (m + 1) j)) ++
        (List.range k).map fun i => (⟨c.x + radius * Real.cos (angle (k + 1) i) * Real.sin Φ, c.y + radius * Real.sin (angle (k + 1) i) * Real.sin Φ, c.z + radius * Real.cos Φ⟩ : V3 ℝ)) ++
      [⟨c.x + radius * Real.cos Θ * Real.sin Φ, c.y + radius * Real.sin Θ * Real.sin Φ, c.z + radius * Real.cos Φ⟩] := by
    unfold sphereList
    rw [List.range_succ, List.flatMap_append, List.flatMap_singleton, hk, ringPoints, List.range_succ, List.map_append, List.append_assoc]
    rfl
  rw [hsplit, List.dropLast_concat]
  refine ⟨_, List.getLast?_concat, fun hq => ?_⟩
  have hsM : 0 < Real.sin Φ := lt_of_lt_of_le (by positivity) (sin_polar (by omega : m < m + 1))
  have hdot : ∀ t u : ℝ, (c.x + radius * Real.cos t * Real.sin u - c.x) * (Real.cos Θ * Real.sin Φ) + (c.y + radius * Real.sin t * Real.sin u - c.y) * (Real.sin Θ * Real.sin Φ) +
      (c.z + radius * Real.cos u - c.z) * Real.cos Φ = radius * (Real.sin u * Real.sin Φ * Real.cos (t - Θ) + Real.cos u * Real.cos Φ) := by
    intro t u; rw [Real.cos_sub]; ring
  have hsub : convexHull ℝ {x | ∃ p ∈ ((List.range m).flatMap (fun j => ringPoints c radius (polar (m + 1) j) (ringN (m + 1) j)) ++
        (List.range k).map fun i => (⟨c.x + radius * Real.cos (angle (k + 1) i) * Real.sin Φ, c.y + radius * Real.sin (angle (k + 1) i) * Real.sin Φ, c.z + radius * Real.cos Φ⟩ : V3 ℝ)), x = coords p} ⊆
      {q : ℝ × ℝ × ℝ | radius * ((q.1 - c.x) * (Real.cos Θ * Real.sin Φ) + (q.2.1 - c.y) * (Real.sin Θ * Real.sin Φ) + (q.2.2 - c.z) * Real.cos Φ) < radius ^ 2} := by
    refine convexHull_min ?_ ?_
    · rintro _ ⟨p, hp, rfl⟩
      rw [List.mem_append] at hp
      have hfin : ∀ t u : ℝ, Real.sin u * Real.sin Φ * Real.cos (t - Θ) + Real.cos u * Real.cos Φ < 1 →
          radius * (radius * (Real.sin u * Real.sin Φ * Real.cos (t - Θ) + Real.cos u * Real.cos Φ)) < radius ^ 2 := by
        intro t u h
        have := mul_lt_mul_of_pos_left h hr2
        nlinarith
      rcases hp with hp | hp
      · simp only [ringPoints, List.mem_flatMap, List.mem_range, List.mem_map] at hp
        obtain ⟨j, hj, i, hi, rfl⟩ := hp
        simp only [Set.mem_setOf_eq, coords, hdot]
        apply hfin
        have hsj : 0 < Real.sin (polar (m + 1) j) := lt_of_lt_of_le (by positivity) (sin_polar (by omega : j < m + 1))
        have h1 : Real.sin (polar (m + 1) j) * Real.sin Φ * Real.cos (angle (ringN (m + 1) j) i - Θ) ≤ Real.sin (polar (m + 1) j) * Real.sin Φ * 1 :=
          mul_le_mul_of_nonneg_left (Real.cos_le_one _) (by positivity)
        have h2 : Real.cos (polar (m + 1) j - Φ) < 1 := by
          apply cos_lt_one
          · rw [sub_ne_zero]
            intro h
            rw [hΦ] at h
            unfold polar at h
            have hpi := Real.pi_pos
            have := mul_right_cancel₀ (show Real.pi / ((m + 1 : ℕ) : ℝ) ≠ 0 by positivity) h
            have : (j : ℝ) = m := by linarith
            have : j = m := by exact_mod_cast this
            omega
          · have p1 := polar_pos (n := m + 1) (j := j) (by omega)
            have p2 := polar_pos (n := m + 1) (j := m) (by omega)
            have p3 := polar_lt (n := m + 1) (j := j) (by omega)
            have p4 := polar_lt (n := m + 1) (j := m) (by omega)
            rw [abs_lt]
            constructor <;> linarith
        rw [Real.cos_sub] at h2
        linarith
      · simp only [List.mem_map, List.mem_range] at hp
        obtain ⟨i, hi, rfl⟩ := hp
        simp only [Set.mem_setOf_eq, coords, hdot]
        apply hfin
        have h1 := cos_angle_lt (n := k + 1) (i := i) (j := k) (by omega) (by omega) (by omega)
        have h2 := mul_lt_mul_of_pos_left h1 (mul_pos hsM hsM)
        have h3 := Real.cos_sq_add_sin_sq Φ
        rw [← hΘ] at h2
        nlinarith
    · intro q hq r hr' a b ha hb hab
      simp only [Set.mem_setOf_eq, Prod.fst_add, Prod.snd_add, Prod.smul_fst, Prod.smul_snd, smul_eq_mul] at hq hr' ⊢
      obtain rfl : b = 1 - a := by linarith
      have e : ∀ P Q T : ℝ, radius * ((a * q.1 + (1 - a) * r.1 - c.x) * P + (a * q.2.1 + (1 - a) * r.2.1 - c.y) * Q + (a * q.2.2 + (1 - a) * r.2.2 - c.z) * T) =
          a * (radius * ((q.1 - c.x) * P + (q.2.1 - c.y) * Q + (q.2.2 - c.z) * T)) + (1 - a) * (radius * ((r.1 - c.x) * P + (r.2.1 - c.y) * Q + (r.2.2 - c.z) * T)) := by intros; ring
      rw [e]
      rcases ha.eq_or_lt with h0 | h0
      · rw [← h0]; linarith
      · have := mul_lt_mul_of_pos_left hq h0
        have := mul_le_mul_of_nonneg_left hr'.le hb
        linarith
  have := hsub hq
  simp only [Set.mem_setOf_eq, coords, hdot, sub_self, Real.cos_zero, mul_one] at this
  have h3 := Real.cos_sq_add_sin_sq Φ
  have e : radius * (radius * (Real.sin Φ * Real.sin Φ + Real.cos Φ * Real.cos Φ)) = radius ^ 2 * (Real.cos Φ ^ 2 + Real.sin Φ ^ 2) := by ring
  rw [e, h3, mul_one] at this
  exact lt_irrefl _ this

end Verif.Canned
