import Verif.Proofs.Canned
/- Circles, cylinders and balls, and the convex hulls of points on them. -/
namespace Verif.Canned
open Verif Verif.Geom Verif.Hull3

/-! ### Angles -/

theorem exists_polar (a b : ℝ) : ∃ ψ : ℝ, a = Real.sqrt (a ^ 2 + b ^ 2) * Real.cos ψ ∧ b = Real.sqrt (a ^ 2 + b ^ 2) * Real.sin ψ := by
  refine ⟨Complex.arg ⟨a, b⟩, ?_, ?_⟩
  · have h := Complex.norm_mul_cos_arg ⟨a, b⟩
    rw [Complex.norm_eq_sqrt_sq_add_sq] at h
    exact h.symm
  · have h := Complex.norm_mul_sin_arg ⟨a, b⟩
    rw [Complex.norm_eq_sqrt_sq_add_sq] at h
    exact h.symm

theorem cos_ge_of_abs_le {x y : ℝ} (h : |x| ≤ y) (hy : y ≤ Real.pi) : Real.cos y ≤ Real.cos x := by
  rw [← Real.cos_abs x]
  exact Real.cos_le_cos_of_nonneg_of_le_pi (abs_nonneg _) hy h

/-- Of `n` equally spaced angles one is within half a step of any direction. -/
theorem near_angle {n : Nat} (hn : 1 ≤ n) (ψ : ℝ) : ∃ i < n, Real.cos (Real.pi / n) ≤ Real.cos (ψ - angle n i) := by
  have hn0 : (0 : ℝ) < n := by exact_mod_cast hn
  have hpi := Real.pi_pos
  set d : ℝ := 2 * Real.pi / n with hd
  have hd0 : 0 < d := by positivity
  set q : ℤ := ⌊ψ / d⌋ with hq
  have h1 := Int.floor_le (ψ / d)
  have h2 := Int.lt_floor_add_one (ψ / d)
  rw [← hq, le_div_iff₀ hd0] at h1
  rw [← hq, div_lt_iff₀ hd0] at h2
  have hnz : (0 : ℤ) < n := by exact_mod_cast hn
  have hm0 := Int.emod_nonneg q hnz.ne'
  have hm1 := Int.emod_lt_of_pos q hnz
  refine ⟨(q % n).toNat, by omega, ?_⟩
  have hcast : (((q % n).toNat : ℕ) : ℝ) = ((q % n : ℤ) : ℝ) := by
    have : (((q % n).toNat : ℕ) : ℤ) = q % n := Int.toNat_of_nonneg hm0
    exact_mod_cast congrArg (Int.cast (R := ℝ)) this
  have hdiv : ((q % n : ℤ) : ℝ) = q - n * ((q / n : ℤ) : ℝ) := by
    have := Int.emod_add_mul_ediv q n
    have : (q % n : ℤ) = q - n * (q / n) := by linarith
    rw [this]; push_cast; ring
  have hang : ψ - angle n (q % n).toNat = (ψ - (q + 1 / 2) * d) + ((q / n : ℤ) : ℝ) * (2 * Real.pi) := by
    unfold angle
    rw [hcast, hdiv, ← hd]
    have : (n : ℝ) * d = 2 * Real.pi := by rw [hd]; field_simp
    have e : ((q : ℝ) - n * ((q / n : ℤ) : ℝ) + 1 / 2) * d = (q + 1 / 2) * d - ((q / n : ℤ) : ℝ) * (n * d) := by ring
    rw [e, this]; ring
  rw [hang, Real.cos_add_int_mul_two_pi]
  apply cos_ge_of_abs_le
  · rw [abs_le]
    have : Real.pi / n = d / 2 := by rw [hd]; ring
    rw [this]; constructor <;> nlinarith
  · rw [div_le_iff₀ hn0]
    have : (1 : ℝ) ≤ n := by exact_mod_cast hn
    nlinarith

theorem cos_lt_one {x : ℝ} (h0 : x ≠ 0) (h1 : |x| < 2 * Real.pi) : Real.cos x < 1 := by
  refine lt_of_le_of_ne (Real.cos_le_one x) fun h => h0 ?_
  rw [abs_lt] at h1
  exact (Real.cos_eq_one_iff_of_lt_of_lt h1.1 h1.2).1 h

theorem angle_sub {n i j : Nat} : angle n i - angle n j = ((i : ℝ) - j) * (2 * Real.pi / n) := by unfold angle; ring

/-- Different angles of a ring are different directions. -/
theorem cos_angle_lt {n i j : Nat} (hi : i < n) (hj : j < n) (hij : i ≠ j) : Real.cos (angle n i - angle n j) < 1 := by
  have hn0 : (0 : ℝ) < n := by exact_mod_cast (by omega : 0 < n)
  have hpi := Real.pi_pos
  rw [angle_sub]
  apply cos_lt_one
  · exact mul_ne_zero (sub_ne_zero.2 (by exact_mod_cast hij)) (by positivity)
  · rw [abs_mul, abs_of_pos (show (0 : ℝ) < 2 * Real.pi / n by positivity)]
    have h1 : |(i : ℝ) - j| < n := by
      have a1 : (i : ℝ) < n := by exact_mod_cast hi
      have a2 : (j : ℝ) < n := by exact_mod_cast hj
      have a3 : (0 : ℝ) ≤ i := Nat.cast_nonneg _
      have a4 : (0 : ℝ) ≤ j := Nat.cast_nonneg _
      rw [abs_lt]; constructor <;> linarith
    calc _ < (n : ℝ) * (2 * Real.pi / n) := mul_lt_mul_of_pos_right h1 (by positivity)
      _ = _ := by field_simp

/-- The first three points of a ring are not on one line. -/
theorem ring_area {n : Nat} (hn : 3 ≤ n) :
    (Real.cos (angle n 1) - Real.cos (angle n 0)) * (Real.sin (angle n 2) - Real.sin (angle n 0)) -
      (Real.sin (angle n 1) - Real.sin (angle n 0)) * (Real.cos (angle n 2) - Real.cos (angle n 0)) ≠ 0 := by
  have hn0 : (0 : ℝ) < n := by exact_mod_cast (by omega : 0 < n)
  have hn3 : (3 : ℝ) ≤ n := by exact_mod_cast hn
  have hpi := Real.pi_pos
  obtain ⟨d, hd⟩ : ∃ d : ℝ, d = 2 * Real.pi / n := ⟨_, rfl⟩
  have e1 : angle n 1 - angle n 0 = d := by rw [angle_sub, hd]; push_cast; ring
  have e2 : angle n 2 - angle n 1 = d := by rw [angle_sub, hd]; push_cast; ring
  have e3 : angle n 2 - angle n 0 = 2 * d := by rw [angle_sub, hd]; push_cast; ring
  have key : (Real.cos (angle n 1) - Real.cos (angle n 0)) * (Real.sin (angle n 2) - Real.sin (angle n 0)) -
      (Real.sin (angle n 1) - Real.sin (angle n 0)) * (Real.cos (angle n 2) - Real.cos (angle n 0)) =
      Real.sin (angle n 2 - angle n 1) + Real.sin (angle n 1 - angle n 0) - Real.sin (angle n 2 - angle n 0) := by
    rw [Real.sin_sub, Real.sin_sub, Real.sin_sub]; ring
  rw [key, e1, e2, e3, Real.sin_two_mul]
  have hd0 : 0 < d := by rw [hd]; positivity
  have hd1 : d < Real.pi := by
    rw [hd, div_lt_iff₀ hn0]; nlinarith
  have hs := Real.sin_pos_of_pos_of_lt_pi hd0 hd1
  have hc : Real.cos d < 1 := cos_lt_one hd0.ne' (by rw [abs_of_pos hd0]; linarith)
  have : Real.sin d + Real.sin d - 2 * Real.sin d * Real.cos d = 2 * (Real.sin d * (1 - Real.cos d)) := by ring
  rw [this]
  have : 0 < Real.sin d * (1 - Real.cos d) := mul_pos hs (by linarith)
  linarith

/-! ### The hull of a list of points -/

theorem vol6_dot (a b c x : V3 ℝ) : vol6 a b c x = dot3 (cross3 (b - a) (c - a)) (x - a) := by
  simp only [vol6, dot3, cross3, V3.sub_x, V3.sub_y, V3.sub_z]; ring

/-- A position that no direction separates from the points is in the solid. -/
theorem inner_of_support {pts : List (V3 ℝ)} {facets : List (List Int)} (h : IsHull3 pts facets) {x : V3 ℝ}
    (hs : ∀ v : V3 ℝ, ∃ p ∈ pts, dot3 v x ≤ dot3 v p) : x ∈ solid pts facets := by
  intro i j k hf
  obtain ⟨p, hp, hle⟩ := hs (cross3 (posOf pts j - posOf pts i) (posOf pts k - posOf pts i))
  have hin : coords p ∈ coords '' {x | ∀ i j k, [i, j, k] ∈ facets → vol6 (posOf pts i) (posOf pts j) (posOf pts k) x ≤ 0} := by
    rw [h.hull]; exact subset_convexHull ℝ _ ⟨p, hp, rfl⟩
  obtain ⟨y, hy, he⟩ := hin
  have hyp : y = p := by
    obtain ⟨y1, y2, y3⟩ := y; obtain ⟨p1, p2, p3⟩ := p
    simp only [coords, Prod.mk.injEq] at he
    obtain ⟨rfl, rfl, rfl⟩ := he; rfl
  have hv := hy i j k hf
  rw [hyp] at hv
  rw [vol6_dot] at hv ⊢
  have : ∀ v a b : V3 ℝ, dot3 v (a - b) = dot3 v a - dot3 v b := by
    intro v a b; simp only [dot3, V3.sub_x, V3.sub_y, V3.sub_z]; ring
  rw [this] at hv ⊢
  linarith

/-- The solid is inside every convex set that contains the points. -/
theorem outer_of_convex {pts : List (V3 ℝ)} {facets : List (List Int)} (h : IsHull3 pts facets) {S : Set (V3 ℝ)}
    (hS : ∀ x ∈ S, ∀ y ∈ S, ∀ a b : ℝ, 0 ≤ a → 0 ≤ b → a + b = 1 → (⟨a * x.x + b * y.x, a * x.y + b * y.y, a * x.z + b * y.z⟩ : V3 ℝ) ∈ S)
    (hp : ∀ p ∈ pts, p ∈ S) : solid pts facets ⊆ S := by
  intro x hx
  have hin : coords x ∈ convexHull ℝ {x | ∃ p ∈ pts, x = coords p} := by
    rw [← h.hull]; exact ⟨x, hx, rfl⟩
  have hsub : convexHull ℝ {x | ∃ p ∈ pts, x = coords p} ⊆ {q : ℝ × ℝ × ℝ | (⟨q.1, q.2.1, q.2.2⟩ : V3 ℝ) ∈ S} := by
    refine convexHull_min ?_ ?_
    · rintro _ ⟨p, hpm, rfl⟩; exact hp p hpm
    · intro q hq r hr a b ha hb hab
      have := hS _ hq _ hr a b ha hb hab
      simpa using this
  exact hsub hin

/-! ### Cylinders -/

theorem cylinder_convex (c : V3 ℝ) (radius length : ℝ) : ∀ x ∈ cylinder c radius length, ∀ y ∈ cylinder c radius length, ∀ a b : ℝ, 0 ≤ a → 0 ≤ b → a + b = 1 →
    (⟨a * x.x + b * y.x, a * x.y + b * y.y, a * x.z + b * y.z⟩ : V3 ℝ) ∈ cylinder c radius length := by
  rintro x ⟨hx1, hx2⟩ y ⟨hy1, hy2⟩ a b ha hb hab
  obtain rfl : b = 1 - a := by linarith
  constructor
  · simp only
    have hab := mul_nonneg ha hb
    have e : (a * x.x + (1 - a) * y.x - c.x) ^ 2 + (a * x.y + (1 - a) * y.y - c.y) ^ 2 =
        a * ((x.x - c.x) ^ 2 + (x.y - c.y) ^ 2) + (1 - a) * ((y.x - c.x) ^ 2 + (y.y - c.y) ^ 2) - a * (1 - a) * ((x.x - y.x) ^ 2 + (x.y - y.y) ^ 2) := by ring
    have h1 := mul_le_mul_of_nonneg_left hx1 ha
    have h2 := mul_le_mul_of_nonneg_left hy1 hb
    have h3 : 0 ≤ a * (1 - a) * ((x.x - y.x) ^ 2 + (x.y - y.y) ^ 2) := by positivity
    rw [e]; linarith
  · simp only
    rw [abs_le] at hx2 hy2 ⊢
    constructor <;> nlinarith

theorem mem_cylinderPoints {c : V3 ℝ} {radius length : ℝ} {n : Nat} {p : V3 ℝ} : p ∈ cylinderPoints c radius length n ↔ ∃ i < n,
    p = ⟨c.x + radius * Real.cos (angle n i), c.y + radius * Real.sin (angle n i), c.z + 1 / 2 * length⟩ ∨
    p = ⟨c.x + radius * Real.cos (angle n i), c.y + radius * Real.sin (angle n i), c.z - 1 / 2 * length⟩ := by
  simp only [cylinderPoints, List.mem_flatMap, List.mem_range, List.mem_cons, List.not_mem_nil, or_false]

theorem cylinder_points {c : V3 ℝ} {radius length : ℝ} (hl : 0 ≤ length) {n : Nat} : ∀ p ∈ cylinderPoints c radius length n, p ∈ cylinder c radius length := by
  intro p hp
  obtain ⟨i, _, rfl | rfl⟩ := mem_cylinderPoints.1 hp
  · refine ⟨?_, ?_⟩
    · simp only [add_sub_cancel_left]
      have := Real.cos_sq_add_sin_sq (angle n i)
      have e : (radius * Real.cos (angle n i)) ^ 2 + (radius * Real.sin (angle n i)) ^ 2 = radius ^ 2 * (Real.cos (angle n i) ^ 2 + Real.sin (angle n i) ^ 2) := by ring
      rw [e, this, mul_one]
    · simp only [add_sub_cancel_left]; rw [abs_of_nonneg (by linarith)]; linarith
  · refine ⟨?_, ?_⟩
    · simp only [add_sub_cancel_left]
      have := Real.cos_sq_add_sin_sq (angle n i)
      have e : (radius * Real.cos (angle n i)) ^ 2 + (radius * Real.sin (angle n i)) ^ 2 = radius ^ 2 * (Real.cos (angle n i) ^ 2 + Real.sin (angle n i) ^ 2) := by ring
      rw [e, this, mul_one]
    · simp only [sub_sub_cancel_left]; rw [abs_of_nonpos (by linarith)]; linarith

/-- The component of a vector in a direction. -/
theorem comp_le {u w r ψ : ℝ} (hr : 0 ≤ r) (h : u ^ 2 + w ^ 2 ≤ r ^ 2) : u * Real.cos ψ + w * Real.sin ψ ≤ r := by
  have h1 := Real.cos_sq_add_sin_sq ψ
  have h2 : (u * Real.cos ψ + w * Real.sin ψ) ^ 2 ≤ r ^ 2 := by
    have e : (u * Real.cos ψ + w * Real.sin ψ) ^ 2 = (u ^ 2 + w ^ 2) * (Real.cos ψ ^ 2 + Real.sin ψ ^ 2) - (u * Real.sin ψ - w * Real.cos ψ) ^ 2 := by ring
    rw [e, h1, mul_one]; have := sq_nonneg (u * Real.sin ψ - w * Real.cos ψ); linarith
  exact (le_abs_self _).trans (abs_le_of_sq_le_sq h2 hr)

theorem cylinder_support {c : V3 ℝ} {radius length : ℝ} (hr : 0 ≤ radius) {n : Nat} (hn : 2 ≤ n) {x : V3 ℝ} (hx : x ∈ cylinder c (radius * Real.cos (Real.pi / n)) length) (v : V3 ℝ) :
    ∃ p ∈ cylinderPoints c radius length n, dot3 v x ≤ dot3 v p := by
  obtain ⟨h1, h2⟩ := hx
  have hn0 : (0 : ℝ) < n := by exact_mod_cast (by omega : 0 < n)
  have hpi := Real.pi_pos
  have hcos : 0 ≤ Real.cos (Real.pi / n) := by
    apply Real.cos_nonneg_of_neg_pi_div_two_le_of_le
    · have : 0 ≤ Real.pi / n := by positivity
      linarith
    · have : (2 : ℝ) ≤ n := by exact_mod_cast hn
      exact div_le_div_of_nonneg_left hpi.le (by norm_num) this
  obtain ⟨ψ, e1, e2⟩ := exists_polar v.x v.y
  set ρ := Real.sqrt (v.x ^ 2 + v.y ^ 2) with hρ
  have hρ0 : 0 ≤ ρ := Real.sqrt_nonneg _
  obtain ⟨i, hi, hnear⟩ := near_angle (by omega : 1 ≤ n) ψ
  have h3 := comp_le (ψ := ψ) (mul_nonneg hr hcos) h1
  have h4 : v.x * (x.x - c.x) + v.y * (x.y - c.y) ≤ ρ * (radius * Real.cos (ψ - angle n i)) := by
    have a1 : v.x * (x.x - c.x) + v.y * (x.y - c.y) = ρ * ((x.x - c.x) * Real.cos ψ + (x.y - c.y) * Real.sin ψ) := by
      rw [e1, e2]; ring
    rw [a1]
    refine (mul_le_mul_of_nonneg_left h3 hρ0).trans (mul_le_mul_of_nonneg_left (mul_le_mul_of_nonneg_left hnear hr) hρ0)
  have h5 : v.x * (radius * Real.cos (angle n i)) + v.y * (radius * Real.sin (angle n i)) = ρ * (radius * Real.cos (ψ - angle n i)) := by
    rw [Real.cos_sub, e1, e2]; ring
  rw [abs_le] at h2
  rcases le_total 0 v.z with hz | hz
  · refine ⟨_, mem_cylinderPoints.2 ⟨i, hi, Or.inl rfl⟩, ?_⟩
    simp only [dot3]
    have := mul_le_mul_of_nonneg_left h2.2 hz
    nlinarith
  · refine ⟨_, mem_cylinderPoints.2 ⟨i, hi, Or.inr rfl⟩, ?_⟩
    simp only [dot3]
    have := mul_le_mul_of_nonpos_left h2.1 hz
    nlinarith

theorem cylinder_notFlat {c : V3 ℝ} {radius length : ℝ} (hr : 0 < radius) (hl : 0 < length) {n : Nat} (hn : 3 ≤ n) : NotFlat (cylinderPoints c radius length n) := by
  refine ⟨_, mem_cylinderPoints.2 ⟨0, by omega, Or.inl rfl⟩, _, mem_cylinderPoints.2 ⟨1, by omega, Or.inl rfl⟩, _, mem_cylinderPoints.2 ⟨2, by omega, Or.inl rfl⟩,
    _, mem_cylinderPoints.2 ⟨0, by omega, Or.inr rfl⟩, ?_⟩
  have h := ring_area hn
  have e : vol6 (⟨c.x + radius * Real.cos (angle n 0), c.y + radius * Real.sin (angle n 0), c.z + 1 / 2 * length⟩ : V3 ℝ)
      ⟨c.x + radius * Real.cos (angle n 1), c.y + radius * Real.sin (angle n 1), c.z + 1 / 2 * length⟩
      ⟨c.x + radius * Real.cos (angle n 2), c.y + radius * Real.sin (angle n 2), c.z + 1 / 2 * length⟩
      ⟨c.x + radius * Real.cos (angle n 0), c.y + radius * Real.sin (angle n 0), c.z - 1 / 2 * length⟩ =
      -(length * radius ^ 2) * ((Real.cos (angle n 1) - Real.cos (angle n 0)) * (Real.sin (angle n 2) - Real.sin (angle n 0)) -
      (Real.sin (angle n 1) - Real.sin (angle n 0)) * (Real.cos (angle n 2) - Real.cos (angle n 0))) := by
    simp only [vol6]; ring
  rw [e]
  exact mul_ne_zero (neg_ne_zero.2 (by positivity)) h

/-- The last point of a cylinder is outside the convex hull of the others. -/
theorem cylinder_last {c : V3 ℝ} {radius length : ℝ} (hr : 0 < radius) (hl : 0 < length) {n : Nat} (hn : 1 ≤ n) :
    ∃ q, (cylinderPoints c radius length n).getLast? = some q ∧ coords q ∉ convexHull ℝ {x | ∃ p ∈ (cylinderPoints c radius length n).dropLast, x = coords p} := by
  obtain ⟨m, rfl⟩ : ∃ m, n = m + 1 := ⟨n - 1, by omega⟩
  set th := angle (m + 1) m with hth
  have hsplit : cylinderPoints c radius length (m + 1) =
      ((List.range m).flatMap fun i =>
        [(⟨c.x + radius * Real.cos (angle (m + 1) i), c.y + radius * Real.sin (angle (m + 1) i), c.z + 1 / 2 * length⟩ : V3 ℝ),
         ⟨c.x + radius * Real.cos (angle (m + 1) i), c.y + radius * Real.sin (angle (m + 1) i), c.z - 1 / 2 * length⟩]) ++
      [⟨c.x + radius * Real.cos th, c.y + radius * Real.sin th, c.z + 1 / 2 * length⟩] ++ [⟨c.x + radius * Real.cos th, c.y + radius * Real.sin th, c.z - 1 / 2 * length⟩] := by
    unfold cylinderPoints
    rw [List.range_succ, List.flatMap_append]
    simp [hth]
  rw [hsplit, List.dropLast_concat]
  refine ⟨_, List.getLast?_concat, fun hq => ?_⟩
  -- the direction that singles it out
  have hsub : convexHull ℝ {x | ∃ p ∈ ((List.range m).flatMap fun i =>
        [(⟨c.x + radius * Real.cos (angle (m + 1) i), c.y + radius * Real.sin (angle (m + 1) i), c.z + 1 / 2 * length⟩ : V3 ℝ),
         ⟨c.x + radius * Real.cos (angle (m + 1) i), c.y + radius * Real.sin (angle (m + 1) i), c.z - 1 / 2 * length⟩]) ++
      [⟨c.x + radius * Real.cos th, c.y + radius * Real.sin th, c.z + 1 / 2 * length⟩], x = coords p} ⊆
      {q : ℝ × ℝ × ℝ | (q.1 - c.x) * Real.cos th + (q.2.1 - c.y) * Real.sin th - (q.2.2 - c.z) < radius + length / 2} := by
    refine convexHull_min ?_ ?_
    · rintro _ ⟨p, hp, rfl⟩
      have hrot : ∀ t : ℝ, (c.x + radius * Real.cos t - c.x) * Real.cos th + (c.y + radius * Real.sin t - c.y) * Real.sin th = radius * Real.cos (t - th) := by
        intro t; rw [Real.cos_sub]; ring
      rw [List.mem_append] at hp
      rcases hp with hp | hp
      · simp only [List.mem_flatMap, List.mem_range, List.mem_cons, List.not_mem_nil, or_false] at hp
        obtain ⟨i, hi, rfl | rfl⟩ := hp
        · simp only [Set.mem_setOf_eq, coords, hrot]
          have := mul_lt_mul_of_pos_left (cos_angle_lt (n := m + 1) (i := i) (j := m) (by omega) (by omega) (by omega)) hr
          rw [← hth] at this; linarith
        · simp only [Set.mem_setOf_eq, coords, hrot]
          have := mul_lt_mul_of_pos_left (cos_angle_lt (n := m + 1) (i := i) (j := m) (by omega) (by omega) (by omega)) hr
          rw [← hth] at this; linarith
      · simp only [List.mem_singleton] at hp
        subst hp
        simp only [Set.mem_setOf_eq, coords, hrot, sub_self, Real.cos_zero]
        linarith
    · intro q hq r hr' a b ha hb hab
      simp only [Set.mem_setOf_eq, Prod.fst_add, Prod.snd_add, Prod.smul_fst, Prod.smul_snd, smul_eq_mul] at hq hr' ⊢
      obtain rfl : b = 1 - a := by linarith
      have e : (a * q.1 + (1 - a) * r.1 - c.x) * Real.cos th + (a * q.2.1 + (1 - a) * r.2.1 - c.y) * Real.sin th - (a * q.2.2 + (1 - a) * r.2.2 - c.z) =
          a * ((q.1 - c.x) * Real.cos th + (q.2.1 - c.y) * Real.sin th - (q.2.2 - c.z)) + (1 - a) * ((r.1 - c.x) * Real.cos th + (r.2.1 - c.y) * Real.sin th - (r.2.2 - c.z)) := by ring
      rw [e]
      rcases ha.eq_or_lt with h0 | h0
      · rw [← h0]; linarith
      · have := mul_lt_mul_of_pos_left hq h0
        have := mul_le_mul_of_nonneg_left hr'.le hb
        linarith
  have := hsub hq
  simp only [Set.mem_setOf_eq, coords] at this
  have e := Real.cos_sq_add_sin_sq th
  have e2 : (c.x + radius * Real.cos th - c.x) * Real.cos th + (c.y + radius * Real.sin th - c.y) * Real.sin th - (c.z - 1 / 2 * length - c.z) =
      radius * (Real.cos th ^ 2 + Real.sin th ^ 2) + length / 2 := by ring
  rw [e2, e] at this
  linarith

theorem cylinder_range {c : V3 ℝ} {radius length big : ℝ} (hr : 0 ≤ radius) (hl : 0 ≤ length) {n : Nat} (hx : |c.x| + radius ≤ big) (hy : |c.y| + radius ≤ big) (hz : |c.z| + length / 2 ≤ big) :
    InRange3 big (cylinderPoints c radius length n) := by
  intro p hp
  have key : ∀ t u : ℝ, |u| ≤ 1 → |t| + radius ≤ big → |t + radius * u| ≤ big := by
    intro t u hu ht
    refine (abs_add_le _ _).trans (le_trans ?_ ht)
    rw [abs_mul, abs_of_nonneg hr]
    nlinarith
  obtain ⟨i, _, rfl | rfl⟩ := mem_cylinderPoints.1 hp
  · refine ⟨key _ _ (Real.abs_cos_le_one _) hx, key _ _ (Real.abs_sin_le_one _) hy, (abs_add_le _ _).trans ?_⟩
    rw [abs_of_nonneg (show 0 ≤ 1 / 2 * length by linarith)]; linarith
  · refine ⟨key _ _ (Real.abs_cos_le_one _) hx, key _ _ (Real.abs_sin_le_one _) hy, (abs_sub _ _).trans ?_⟩
    rw [abs_of_nonneg (show 0 ≤ 1 / 2 * length by linarith)]; linarith

/-! ### How far the points of a cylinder are from the planes of others -/

theorem half_sum {n i j : Nat} : (angle n i + angle n j) / 2 = ((i + j + 1 : ℕ) : ℝ) * (Real.pi / n) := by
  unfold angle; push_cast; ring

/-- The sine of a multiple of `π/n` is zero or at least `2/n`. -/
theorem sin_mul_pi {n : Nat} (hn : 2 ≤ n) (k : Int) : Real.sin (k * (Real.pi / n)) = 0 ∨ 2 / (n : ℝ) ≤ |Real.sin (k * (Real.pi / n))| := by
  have hn0 : (0 : ℝ) < n := by exact_mod_cast (by omega : 0 < n)
  have hpi := Real.pi_pos
  have hnz : (0 : ℤ) < n := by exact_mod_cast (by omega : 0 < n)
  have hm0 := Int.emod_nonneg k hnz.ne'
  have hm1 := Int.emod_lt_of_pos k hnz
  have hk : (k : ℝ) * (Real.pi / n) = ((k % n : ℤ) : ℝ) * (Real.pi / n) + ((k / n : ℤ) : ℝ) * Real.pi := by
    have := Int.emod_add_mul_ediv k n
    have e : (k : ℝ) = ((k % n : ℤ) : ℝ) + n * ((k / n : ℤ) : ℝ) := by exact_mod_cast this.symm
    rw [e]; push_cast; field_simp
  have habs : |Real.sin (k * (Real.pi / n))| = |Real.sin (((k % n : ℤ) : ℝ) * (Real.pi / n))| := by
    rw [hk, Real.sin_add_int_mul_pi, abs_mul, abs_zpow, abs_neg, abs_one, one_zpow, one_mul]
  rcases hm0.eq_or_lt with h0 | h0
  · left
    rw [← h0, Int.cast_zero, zero_mul, Real.sin_zero, abs_zero, abs_eq_zero] at habs
    exact habs
  · right
    rw [habs]
    obtain ⟨r, hr⟩ : ∃ r : ℤ, r = k % n := ⟨_, rfl⟩
    rw [← hr] at h0 hm1 ⊢
    have hr1 : (1 : ℝ) ≤ r := by exact_mod_cast h0
    have hr2 : (r : ℝ) ≤ n - 1 := by
      have : r ≤ n - 1 := by omega
      exact_mod_cast this
    have hge : ∀ t : ℝ, Real.pi / n ≤ t → t ≤ Real.pi / 2 → 2 / (n : ℝ) ≤ Real.sin t := by
      intro t h1 h2
      have h3 : 0 ≤ t := le_trans (by positivity) h1
      refine le_trans ?_ (Real.mul_le_sin h3 h2)
      calc 2 / (n : ℝ) = 2 / Real.pi * (Real.pi / n) := by field_simp
        _ ≤ _ := mul_le_mul_of_nonneg_left h1 (by positivity)
    refine le_trans ?_ (le_abs_self _)
    have hle : Real.pi / n ≤ r * (Real.pi / n) := by
      have : 0 < Real.pi / n := by positivity
      nlinarith
    rcases le_total (r * (Real.pi / n)) (Real.pi / 2) with h | h
    · exact hge _ hle h
    · rw [← Real.sin_pi_sub]
      apply hge
      · have e : Real.pi - r * (Real.pi / n) = (n - r) * (Real.pi / n) := by field_simp
        rw [e]
        have : 0 < Real.pi / n := by positivity
        nlinarith
      · linarith

/-- Zero, or not smaller than the smallest volume. -/
def Far (n : Nat) (radius length x : ℝ) : Prop := x = 0 ∨ 32 * (radius ^ 2 * length) / n ^ 3 ≤ |x|

theorem far_neg {n : Nat} {radius length x : ℝ} (h : Far n radius length x) : Far n radius length (-x) := by
  rcases h with h | h
  · exact Or.inl (by rw [h, neg_zero])
  · exact Or.inr (by rwa [abs_neg])

theorem far_sin {n : Nat} (hn : 2 ≤ n) {radius length : ℝ} (hl : 0 ≤ length) (i j k : Int) :
    Far n radius length (length * (radius ^ 2 * (4 * (Real.sin (i * (Real.pi / n)) * Real.sin (j * (Real.pi / n)) * Real.sin (k * (Real.pi / n)))))) := by
  rcases sin_mul_pi hn i with h | hi
  · left; rw [h]; ring
  rcases sin_mul_pi hn j with h | hj
  · left; rw [h]; ring
  rcases sin_mul_pi hn k with h | hk
  · left; rw [h]; ring
  right
  have hn0 : (0 : ℝ) < n := by exact_mod_cast (by omega : 0 < n)
  rw [abs_mul, abs_mul, abs_mul, abs_mul, abs_mul, abs_of_nonneg hl, abs_of_nonneg (sq_nonneg radius), abs_of_nonneg (by norm_num : (0 : ℝ) ≤ 4)]
  have h1 : 2 / (n : ℝ) * (2 / n) * (2 / n) ≤ |Real.sin (i * (Real.pi / n))| * |Real.sin (j * (Real.pi / n))| * |Real.sin (k * (Real.pi / n))| :=
    mul_le_mul (mul_le_mul hi hj (by positivity) (abs_nonneg _)) hk (by positivity) (by positivity)
  calc 32 * (radius ^ 2 * length) / n ^ 3 = length * (radius ^ 2 * (4 * (2 / (n : ℝ) * (2 / n) * (2 / n)))) := by field_simp; ring
    _ ≤ _ := mul_le_mul_of_nonneg_left (mul_le_mul_of_nonneg_left (mul_le_mul_of_nonneg_left h1 (by norm_num)) (sq_nonneg _)) hl

theorem half_diff {n i j : Nat} : (angle n j - angle n i) / 2 = (((j : ℤ) - i : ℤ) : ℝ) * (Real.pi / n) := by
  rw [angle_sub]; push_cast; ring

/-- Twice a half angle. -/
theorem chord (α β : ℝ) : Real.cos β - Real.cos α = -2 * Real.sin ((β - α) / 2) * Real.sin ((α + β) / 2) ∧ Real.sin β - Real.sin α = 2 * Real.sin ((β - α) / 2) * Real.cos ((α + β) / 2) := by
  refine ⟨?_, ?_⟩
  · rw [Real.cos_sub_cos, add_comm β α]; ring
  · rw [Real.sin_sub_sin, add_comm β α]

/-- Two chords of a circle. -/
theorem chords {n : Nat} (i j k l : Nat) :
    (Real.cos (angle n j) - Real.cos (angle n i)) * (Real.sin (angle n l) - Real.sin (angle n k)) - (Real.sin (angle n j) - Real.sin (angle n i)) * (Real.cos (angle n l) - Real.cos (angle n k)) =
      4 * (Real.sin (((j : ℤ) - i : ℤ) * (Real.pi / n)) * Real.sin (((l : ℤ) - k : ℤ) * (Real.pi / n)) * Real.sin (((k : ℤ) + l - i - j : ℤ) * (Real.pi / n))) := by
  rw [(chord (angle n i) (angle n j)).1, (chord (angle n i) (angle n j)).2, (chord (angle n k) (angle n l)).1, (chord (angle n k) (angle n l)).2, ← half_diff, ← half_diff]
  have e : (((k : ℤ) + l - i - j : ℤ) : ℝ) * (Real.pi / n) = (angle n k + angle n l) / 2 - (angle n i + angle n j) / 2 := by
    rw [half_sum, half_sum]; push_cast; ring
  rw [e, Real.sin_sub]; ring

theorem far_chords {n : Nat} (hn : 2 ≤ n) {radius length : ℝ} (hl : 0 ≤ length) (i j k l : Nat) :
    Far n radius length (length * (radius ^ 2 * ((Real.cos (angle n j) - Real.cos (angle n i)) * (Real.sin (angle n l) - Real.sin (angle n k)) -
      (Real.sin (angle n j) - Real.sin (angle n i)) * (Real.cos (angle n l) - Real.cos (angle n k))))) := by
  rw [chords]
  exact far_sin hn hl _ _ _

set_option maxHeartbeats 1000000 in
/-- The volume of four points of a cylinder is zero or not very small. -/
theorem cylinder_far {c : V3 ℝ} {radius length : ℝ} (hl : 0 ≤ length) {n : Nat} (hn : 2 ≤ n) {a b d p : V3 ℝ} (ha : a ∈ cylinderPoints c radius length n) (hb : b ∈ cylinderPoints c radius length n)
    (hd : d ∈ cylinderPoints c radius length n) (hp : p ∈ cylinderPoints c radius length n) : Far n radius length (vol6 a b d p) := by
  have F := fun i j k l => far_chords (n := n) hn (radius := radius) hl i j k l
  have G := fun i j k l => far_neg (F i j k l)
  obtain ⟨i, _, ha⟩ := mem_cylinderPoints.1 ha
  obtain ⟨j, _, hb⟩ := mem_cylinderPoints.1 hb
  obtain ⟨k, _, hd⟩ := mem_cylinderPoints.1 hd
  obtain ⟨l, _, hp⟩ := mem_cylinderPoints.1 hp
  have s := fun {x y : ℝ} (h : Far n radius length x) (e : y = x) => show Far n radius length y from e ▸ h
  rcases ha with rfl | rfl <;> rcases hb with rfl | rfl <;> rcases hd with rfl | rfl <;> rcases hp with rfl | rfl <;> simp only [vol6] <;>
    first
    | exact Or.inl (by ring1)
    | exact s (F i j i k) (by ring1)
    | exact s (G i j i k) (by ring1)
    | exact s (F i j i l) (by ring1)
    | exact s (G i j i l) (by ring1)
    | exact s (F i k i l) (by ring1)
    | exact s (G i k i l) (by ring1)
    | exact s (F j k j l) (by ring1)
    | exact s (G j k j l) (by ring1)
    | exact s (F i j k l) (by ring1)
    | exact s (G i j k l) (by ring1)
    | exact s (F i k j l) (by ring1)
    | exact s (G i k j l) (by ring1)
    | exact s (F i l j k) (by ring1)
    | exact s (G i l j k) (by ring1)

theorem cylinder_cross {c : V3 ℝ} {radius length : ℝ} {n : Nat} {a b d : V3 ℝ} (ha : a ∈ cylinderPoints c radius length n) (hb : b ∈ cylinderPoints c radius length n)
    (hd : d ∈ cylinderPoints c radius length n) : len3 (cross3 (b - a) (d - a)) ≤ 4 * radius ^ 2 + length ^ 2 := by
  have key : ∀ {a b : V3 ℝ}, a ∈ cylinderPoints c radius length n → b ∈ cylinderPoints c radius length n → dot3 (b - a) (b - a) ≤ 4 * radius ^ 2 + length ^ 2 := by
    intro a b ha hb
    obtain ⟨i, _, ha⟩ := mem_cylinderPoints.1 ha
    obtain ⟨j, _, hb⟩ := mem_cylinderPoints.1 hb
    have h1 := Real.cos_sq_add_sin_sq (angle n i)
    have h2 := Real.cos_sq_add_sin_sq (angle n j)
    have h3 : radius ^ 2 * ((Real.cos (angle n j) - Real.cos (angle n i)) ^ 2 + (Real.sin (angle n j) - Real.sin (angle n i)) ^ 2) ≤ radius ^ 2 * 4 := by
      refine mul_le_mul_of_nonneg_left ?_ (sq_nonneg _)
      nlinarith [sq_nonneg (Real.cos (angle n j) + Real.cos (angle n i)), sq_nonneg (Real.sin (angle n j) + Real.sin (angle n i))]
    have h4 := sq_nonneg length
    rcases ha with rfl | rfl <;> rcases hb with rfl | rfl <;> simp only [dot3, V3.sub_x, V3.sub_y, V3.sub_z] <;> nlinarith
  have hD : 0 ≤ 4 * radius ^ 2 + length ^ 2 := by positivity
  unfold len3
  rw [Real.sqrt_le_left hD]
  have h1 := key ha hb
  have h2 := key ha hd
  have e : dot3 (cross3 (b - a) (d - a)) (cross3 (b - a) (d - a)) = dot3 (b - a) (b - a) * dot3 (d - a) (d - a) - dot3 (b - a) (d - a) ^ 2 := by
    simp only [dot3, cross3]; ring
  have n1 : 0 ≤ dot3 (d - a) (d - a) := by simp only [dot3]; nlinarith [sq_nonneg (d - a).x, sq_nonneg (d - a).y, sq_nonneg (d - a).z]
  have := mul_le_mul h1 h2 n1 hD
  have := sq_nonneg (dot3 (b - a) (d - a))
  rw [e, pow_two (4 * radius ^ 2 + length ^ 2)]
  linarith

/-- The points of a cylinder are separated if there are not too many. -/
theorem cylinder_separated {c : V3 ℝ} {radius length : ℝ} (hl : 0 ≤ length) {n : Nat} (hn : 2 ≤ n) (hfew : (n : ℝ) ^ 4 * max (1 / 10 ^ 100) (4 * radius ^ 2 + length ^ 2) ≤ 16 * 10 ^ 8 * (radius ^ 2 * length)) :
    Separated (((cylinderPoints c radius length n).length : ℝ) / 10 ^ 8) (cylinderPoints c radius length n) := by
  intro a ha b hb d hd p hp
  rcases cylinder_far hl hn ha hb hd hp with h | h
  · exact Or.inl h
  · refine Or.inr (le_trans ?_ h)
    have hlen : ((cylinderPoints c radius length n).length : ℝ) = 2 * n := by
      have : (cylinderPoints c radius length n).length = 2 * n := by simp [cylinderPoints, List.length_flatMap, Nat.mul_comm]
      rw [this]; push_cast; ring
    have hn0 : (0 : ℝ) < n := by exact_mod_cast (by omega : 0 < n)
    rw [hlen, le_div_iff₀ (by positivity)]
    have hm := max_le_max (le_refl (1 / 10 ^ 100 : ℝ)) (cylinder_cross ha hb hd)
    calc 2 * (n : ℝ) / 10 ^ 8 * max (1 / 10 ^ 100) (len3 (cross3 (b - a) (d - a))) * n ^ 3
        ≤ 2 * (n : ℝ) / 10 ^ 8 * max (1 / 10 ^ 100) (4 * radius ^ 2 + length ^ 2) * n ^ 3 :=
          mul_le_mul_of_nonneg_right (mul_le_mul_of_nonneg_left hm (by positivity)) (by positivity)
      _ = 2 / 10 ^ 8 * ((n : ℝ) ^ 4 * max (1 / 10 ^ 100) (4 * radius ^ 2 + length ^ 2)) := by ring
      _ ≤ 2 / 10 ^ 8 * (16 * 10 ^ 8 * (radius ^ 2 * length)) := mul_le_mul_of_nonneg_left hfew (by positivity)
      _ = _ := by ring

end Verif.Canned
