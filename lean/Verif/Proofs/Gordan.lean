import Verif.Proofs.Csg3
import Mathlib.Order.CountableDenseLinearOrder
/-
Gordan's theorem in space: a polytope without the origin is on one side of a plane through the origin. By elimination of one coordinate after the other, so over any ordered field.
-/
namespace Verif.Csg
open Verif Verif.Geom

variable {K : Type} [Field K] [LinearOrder K] [IsStrictOrderedRing K]

theorem hull_cone {l l' : List (V3 K)} (h : ∀ w ∈ l', ∃ k, 0 < k ∧ Hull3 l (V3.scale k w)) {q : V3 K} (hq : Hull3 l' q) : ∃ k, 0 < k ∧ Hull3 l (V3.scale k q) := by
  induction hq with
  | pt hv => exact h _ hv
  | @seg a b t _ _ t0 t1 iha ihb =>
    obtain ⟨i, i0, hi⟩ := iha
    obtain ⟨j, j0, hj⟩ := ihb
    rcases t0.eq_or_lt with rfl | t0
    · rw [lerp3_zero]; exact ⟨i, i0, hi⟩
    · have hs : 0 < (1 - t) / i + t / j := by
        have : 0 ≤ (1 - t) / i := div_nonneg (by linarith) i0.le
        have : 0 < t / j := div_pos t0 j0
        linarith
      have hu0 : 0 ≤ t / j / ((1 - t) / i + t / j) := div_nonneg (div_nonneg t0.le j0.le) hs.le
      have hu1 : t / j / ((1 - t) / i + t / j) ≤ 1 := by
        rw [div_le_one hs]
        have : 0 ≤ (1 - t) / i := div_nonneg (by linarith) i0.le
        linarith
      refine ⟨1 / ((1 - t) / i + t / j), one_div_pos.2 hs, ?_⟩
      have e : V3.scale (1 / ((1 - t) / i + t / j)) (lerp3 a b t) = lerp3 (V3.scale i a) (V3.scale j b) (t / j / ((1 - t) / i + t / j)) := by
        have hs' := hs.ne'
        have e1 : 1 - t / j / ((1 - t) / i + t / j) = (1 - t) / i / ((1 - t) / i + t / j) := by
          rw [eq_div_iff hs', sub_mul, div_mul_cancel₀ _ hs']; ring
        have key : ∀ x y : K, 1 / ((1 - t) / i + t / j) * ((1 - t) * x + t * y) = (1 - t / j / ((1 - t) / i + t / j)) * (i * x) + t / j / ((1 - t) / i + t / j) * (j * y) := by
          intro x y
          rw [e1]
          have hi' := i0.ne'
          have hj' := j0.ne'
          generalize hS : (1 - t) / i + t / j = S at hs'
          field_simp
        ext
        · have := key a.x b.x; simp only [lerp3, V3.scale_x] at this ⊢; linear_combination this
        · have := key a.y b.y; simp only [lerp3, V3.scale_y] at this ⊢; linear_combination this
        · have := key a.z b.z; simp only [lerp3, V3.scale_z] at this ⊢; linear_combination this
      rw [e]
      exact .seg hi hj hu0 hu1

theorem eliminate (a : V3 K) (l : List (V3 K)) : ∃ l' : List (V3 K), (∀ w ∈ l', dot3 a w = 0) ∧ (∀ b, (∀ v ∈ l, dot3 b v = 0) → ∀ w ∈ l', dot3 b w = 0)
    ∧ (∀ w ∈ l', ∃ k, 0 < k ∧ Hull3 l (V3.scale k w)) ∧ ∀ g, (∀ w ∈ l', 0 < dot3 g w) → ∃ s, ∀ v ∈ l, 0 < dot3 (g + V3.scale s a) v := by
  classical
  set comb : V3 K → V3 K → V3 K := fun p n => V3.scale (dot3 a p) n - V3.scale (dot3 a n) p with hcomb
  have hdot : ∀ b p n, dot3 b (comb p n) = dot3 a p * dot3 b n - dot3 a n * dot3 b p := by
    intro b p n; simp only [hcomb, dot3, V3.sub_x, V3.sub_y, V3.sub_z, V3.scale_x, V3.scale_y, V3.scale_z]; ring
  refine ⟨(l.filter fun v => dot3 a v = 0) ++ (l.filter fun v => 0 < dot3 a v).flatMap fun p => (l.filter fun v => dot3 a v < 0).map (comb p), ?_, ?_, ?_, ?_⟩
  · intro w hw
    simp only [List.mem_append, List.mem_filter, List.mem_flatMap, List.mem_map, decide_eq_true_eq] at hw
    rcases hw with hw | ⟨p, hp, n, hn, rfl⟩
    · exact hw.2
    · rw [hdot]; ring
  · intro b hb w hw
    simp only [List.mem_append, List.mem_filter, List.mem_flatMap, List.mem_map, decide_eq_true_eq] at hw
    rcases hw with hw | ⟨p, hp, n, hn, rfl⟩
    · exact hb w hw.1
    · rw [hdot, hb p hp.1, hb n hn.1]; ring
  · intro w hw
    simp only [List.mem_append, List.mem_filter, List.mem_flatMap, List.mem_map, decide_eq_true_eq] at hw
    rcases hw with hw | ⟨p, hp, n, hn, rfl⟩
    · exact ⟨1, one_pos, by rw [show V3.scale 1 w = w by ext <;> simp [V3.scale]]; exact .pt hw.1⟩
    · have hs : 0 < dot3 a p - dot3 a n := by linarith [hp.2, hn.2]
      refine ⟨1 / (dot3 a p - dot3 a n), one_div_pos.2 hs, ?_⟩
      have e : V3.scale (1 / (dot3 a p - dot3 a n)) (comb p n) = lerp3 p n (dot3 a p / (dot3 a p - dot3 a n)) := by
        have hs' := hs.ne'
        have e1 : 1 - dot3 a p / (dot3 a p - dot3 a n) = -dot3 a n / (dot3 a p - dot3 a n) := by rw [eq_div_iff hs', sub_mul, div_mul_cancel₀ _ hs']; ring
        have key : ∀ x y : K, 1 / (dot3 a p - dot3 a n) * (dot3 a p * y - dot3 a n * x) = (1 - dot3 a p / (dot3 a p - dot3 a n)) * x + dot3 a p / (dot3 a p - dot3 a n) * y := by
          intro x y; rw [e1]; ring
        ext
        · have := key p.x n.x; simp only [hcomb, lerp3, V3.scale_x, V3.sub_x] at this ⊢; linear_combination this
        · have := key p.y n.y; simp only [hcomb, lerp3, V3.scale_y, V3.sub_y] at this ⊢; linear_combination this
        · have := key p.z n.z; simp only [hcomb, lerp3, V3.scale_z, V3.sub_z] at this ⊢; linear_combination this
      rw [e]
      refine .seg (.pt hp.1) (.pt hn.1) (div_nonneg hp.2.le hs.le) ?_
      rw [div_le_one hs]; linarith [hn.2]
  · intro g hg
    have hd : ∀ s v, dot3 (g + V3.scale s a) v = dot3 g v + s * dot3 a v := by
      intro s v; simp only [dot3, V3.add_x, V3.add_y, V3.add_z, V3.scale_x, V3.scale_y, V3.scale_z]; ring
    have key : ∀ x ∈ ((l.filter fun v => 0 < dot3 a v).map fun p => -dot3 g p / dot3 a p).toFinset, ∀ y ∈ ((l.filter fun v => dot3 a v < 0).map fun n => -dot3 g n / dot3 a n).toFinset, x < y := by
      intro x hx y hy
      simp only [List.mem_toFinset, List.mem_map, List.mem_filter, decide_eq_true_eq] at hx hy
      obtain ⟨p, ⟨hp, p0⟩, rfl⟩ := hx
      obtain ⟨n, ⟨hn, n0⟩, rfl⟩ := hy
      have := hg (comb p n) (by
        simp only [List.mem_append, List.mem_filter, List.mem_flatMap, List.mem_map, decide_eq_true_eq]
        exact Or.inr ⟨p, ⟨hp, p0⟩, n, ⟨hn, n0⟩, rfl⟩)
      rw [hdot] at this
      rw [div_lt_iff₀ p0, div_mul_eq_mul_div, lt_div_iff_of_neg n0]
      linarith
    obtain ⟨s, h1, h2⟩ := Order.exists_between_finsets _ _ key
    refine ⟨s, fun v hv => ?_⟩
    rw [hd]
    rcases lt_trichotomy (dot3 a v) 0 with h | h | h
    · have := h2 (-dot3 g v / dot3 a v) (by
        simp only [List.mem_toFinset, List.mem_map, List.mem_filter, decide_eq_true_eq]; exact ⟨v, ⟨hv, h⟩, rfl⟩)
      rw [lt_div_iff_of_neg h] at this
      linarith
    · rw [h]
      have := hg v (by simp only [List.mem_append, List.mem_filter, decide_eq_true_eq]; exact Or.inl ⟨hv, h⟩)
      linarith
    · have := h1 (-dot3 g v / dot3 a v) (by
        simp only [List.mem_toFinset, List.mem_map, List.mem_filter, decide_eq_true_eq]; exact ⟨v, ⟨hv, h⟩, rfl⟩)
      rw [div_lt_iff₀ h] at this
      linarith

/-- Gordan's theorem. -/
theorem gordan {l : List (V3 K)} (h : ¬ Hull3 l 0) : ∃ n, ∀ v ∈ l, 0 < dot3 n v := by
  obtain ⟨l1, a1, b1, c1, d1⟩ := eliminate ⟨1, 0, 0⟩ l
  obtain ⟨l2, a2, b2, c2, d2⟩ := eliminate ⟨0, 1, 0⟩ l1
  obtain ⟨l3, a3, b3, c3, d3⟩ := eliminate ⟨0, 0, 1⟩ l2
  have nil : l3 = [] := by
    rcases l3 with _ | ⟨w, l3⟩
    · rfl
    · exfalso
      have hx := b3 _ (b2 _ a1) w (by simp)
      have hy := b3 _ a2 w (by simp)
      have hz := a3 w (by simp)
      simp only [dot3, zero_mul, one_mul, add_zero, zero_add] at hx hy hz
      have w0 : w = 0 := by ext <;> assumption
      have z : ∀ k : K, V3.scale k (0 : V3 K) = 0 := fun k => by ext <;> simp [V3.scale]
      obtain ⟨k3, -, h3⟩ := hull_cone c3 (q := 0) (.pt (by rw [w0]; simp))
      rw [z] at h3
      obtain ⟨k2, -, h2⟩ := hull_cone c2 h3
      rw [z] at h2
      obtain ⟨k1, -, h1⟩ := hull_cone c1 h2
      rw [z] at h1
      exact h h1
  obtain ⟨s3, h3⟩ := d3 0 (by simp [nil])
  obtain ⟨s2, h2⟩ := d2 _ h3
  obtain ⟨s1, h1⟩ := d1 _ h2
  exact ⟨_, h1⟩

/-- A segment and a polytope without common points are strictly separated. -/
theorem separate {vs : List (V3 K)} {p q : V3 K} (h : ∀ t, 0 ≤ t → t ≤ 1 → ¬ Hull3 vs (lerp3 p q t)) : ∃ n, ∀ v ∈ vs, dot3 n p < dot3 n v ∧ dot3 n q < dot3 n v := by
  have key : ∀ u, Hull3 (vs.map (· - p) ++ vs.map (· - q)) u → ∃ y s, Hull3 vs y ∧ 0 ≤ s ∧ s ≤ 1 ∧ u = y - lerp3 p q s := by
    intro u hu
    induction hu with
    | pt hv =>
      rcases List.mem_append.1 hv with hv | hv
      · obtain ⟨y, hy, rfl⟩ := List.mem_map.1 hv
        exact ⟨y, 0, .pt hy, le_rfl, zero_le_one, by rw [lerp3_zero]⟩
      · obtain ⟨y, hy, rfl⟩ := List.mem_map.1 hv
        exact ⟨y, 1, .pt hy, zero_le_one, le_rfl, by ext <;> simp [lerp3]⟩
    | @seg a b t _ _ t0 t1 iha ihb =>
      obtain ⟨y, s, hy, s0, s1, rfl⟩ := iha
      obtain ⟨z, r, hz, r0, r1, rfl⟩ := ihb
      refine ⟨lerp3 y z t, (1 - t) * s + t * r, .seg hy hz t0 t1, by nlinarith, by nlinarith, ?_⟩
      ext <;> simp only [lerp3, V3.sub_x, V3.sub_y, V3.sub_z] <;> ring
  obtain ⟨n, hn⟩ := gordan (l := vs.map (· - p) ++ vs.map (· - q)) (by
    intro h0
    obtain ⟨y, s, hy, s0, s1, e⟩ := key 0 h0
    have : y = lerp3 p q s := by
      have ex := congrArg V3.x e
      have ey := congrArg V3.y e
      have ez := congrArg V3.z e
      simp only [V3.sub_x, V3.sub_y, V3.sub_z, V3.zero_x, V3.zero_y, V3.zero_z] at ex ey ez
      ext <;> linarith
    exact h s s0 s1 (this ▸ hy))
  refine ⟨n, fun v hv => ⟨?_, ?_⟩⟩
  · have := hn (v - p) (List.mem_append_left _ (List.mem_map_of_mem hv))
    simp only [dot3, V3.sub_x, V3.sub_y, V3.sub_z] at this ⊢; linarith
  · have := hn (v - q) (List.mem_append_right _ (List.mem_map_of_mem hv))
    simp only [dot3, V3.sub_x, V3.sub_y, V3.sub_z] at this ⊢; linarith

theorem conv_lt {t a b c : K} (t0 : 0 ≤ t) (t1 : t ≤ 1) (ha : c < a) (hb : c < b) : c < (1 - t) * a + t * b := by
  rcases t0.eq_or_lt with rfl | t0
  · linarith
  · nlinarith

theorem hull_gt {l : List (V3 K)} {n q : V3 K} {c : K} (h : ∀ v ∈ l, c < dot3 n v) (hq : Hull3 l q) : c < dot3 n q := by
  induction hq with
  | pt h' => exact h _ h'
  | @seg a b t _ _ t0 t1 iha ihb => rw [dot_lerp]; exact conv_lt t0 t1 iha ihb

/-- Strictly separated segments do not meet. -/
theorem separated {vs : List (V3 K)} {n p q : V3 K} (h : ∀ v ∈ vs, dot3 n p < dot3 n v ∧ dot3 n q < dot3 n v) : ∀ t, 0 ≤ t → t ≤ 1 → ¬ Hull3 vs (lerp3 p q t) := by
  intro t t0 t1 hh
  have := hull_gt (n := n) (c := dot3 n (lerp3 p q t)) (fun v hv => by
    obtain ⟨h1, h2⟩ := h v hv
    have := conv_lt t0 t1 (neg_lt_neg h1) (neg_lt_neg h2)
    rw [dot_lerp]; linarith) hh
  exact lt_irrefl _ this
end Verif.Csg
