import Verif.Proofs.SolidAny
import Mathlib.Algebra.Order.Field.Rat
import Mathlib.Algebra.Order.Ring.Unbundled.Rat
import Mathlib.Tactic.Linarith
/-
A solid that is not convex, as an example for the boolean operations.
-/
namespace Verif.Csg
open Verif Verif.Geom Verif.Mesh

/-! ### Leaving convex sets -/

section
variable {K : Type} [Field K] [LinearOrder K] [IsStrictOrderedRing K]

/-- Strictly in front of all planes. -/
def InFront (cs : List (Plane K)) (q : V3 K) : Prop := ∀ p ∈ cs, p.w < dot3 p.normal q

/-- On the rim of what is in front of all planes. -/
def OnRim (cs : List (Plane K)) (q : V3 K) : Prop := (∀ p ∈ cs, p.w ≤ dot3 p.normal q) ∧ ∃ p ∈ cs, dot3 p.normal q = p.w

theorem leave {p q : V3 K} : ∀ {cs : List (Plane K)}, InFront cs p → ¬ InFront cs q → ∃ t, 0 < t ∧ t ≤ 1 ∧ OnRim cs (lerp3 p q t) ∧ ∀ s, t ≤ s → ¬ InFront cs (lerp3 p q s)
  | [], _, h => absurd (fun p hp => by simp at hp) h
  | c :: cs, hp, hq => by
    have hpc := hp c (by simp)
    have hps : InFront cs p := fun p hp' => hp p (List.mem_cons_of_mem _ hp')
    have grow : ∀ {c : Plane K} {t : K}, c.w < dot3 c.normal p → 0 < t → dot3 c.normal (lerp3 p q t) = c.w → ∀ s, t ≤ s → ¬ c.w < dot3 c.normal (lerp3 p q s) := by
      intro c t h1 t0 h2 s hs h3
      rw [dot_lerp] at h2 h3
      have : t * (dot3 c.normal p - dot3 c.normal q) = dot3 c.normal p - c.w := by linarith
      have h4 : 0 < dot3 c.normal p - dot3 c.normal q := by
        by_contra h
        have := mul_nonpos_of_nonneg_of_nonpos t0.le (not_lt.1 h)
        linarith
      nlinarith
    by_cases hqs : InFront cs q
    · have hqc : dot3 c.normal q ≤ c.w := by
        by_contra h
        exact hq fun p hp => by rcases List.mem_cons.1 hp with rfl | hp; exacts [not_le.1 h, hqs p hp]
      set g0 := dot3 c.normal p - c.w with hg0
      set g1 := c.w - dot3 c.normal q with hg1
      have p0 : 0 < g0 := by linarith
      have p1 : 0 ≤ g1 := by linarith
      have ps : 0 < g0 + g1 := by linarith
      have e : dot3 c.normal (lerp3 p q (g0 / (g0 + g1))) = c.w := by
        rw [dot_lerp]
        have : g0 / (g0 + g1) * (g0 + g1) = g0 := div_mul_cancel₀ _ ps.ne'
        have e2 : g0 + g1 = dot3 c.normal p - dot3 c.normal q := by rw [hg0, hg1]; ring
        rw [e2] at this ⊢
        linarith
      have t0 : 0 < g0 / (g0 + g1) := div_pos p0 ps
      have t1 : g0 / (g0 + g1) ≤ 1 := (div_le_one ps).2 (by linarith)
      refine ⟨g0 / (g0 + g1), t0, t1, ⟨fun p' hp' => ?_, c, by simp, e⟩, fun s hs h => grow hpc t0 e s hs (h c (by simp))⟩
      rcases List.mem_cons.1 hp' with rfl | hp'
      · exact e.ge
      · rw [dot_lerp]
        have h1 := hps p' hp'
        have h2 := hqs p' hp'
        nlinarith
    · obtain ⟨t, t0, t1, ⟨h1, c', hc', h2⟩, h3⟩ := leave hps hqs
      by_cases hct : c.w ≤ dot3 c.normal (lerp3 p q t)
      · refine ⟨t, t0, t1, ⟨fun p' hp' => ?_, c', List.mem_cons_of_mem _ hc', h2⟩, fun s hs h => h3 s hs fun p hp => h p (List.mem_cons_of_mem _ hp)⟩
        rcases List.mem_cons.1 hp' with rfl | hp'
        exacts [hct, h1 p' hp']
      · have hct' := not_le.1 hct
        rw [dot_lerp] at hct'
        set g0 := dot3 c.normal p - c.w with hg0
        set d := dot3 c.normal p - dot3 c.normal q with hd
        have hd0 : g0 < t * d := by rw [hg0, hd]; linarith
        have p0 : 0 < g0 := by linarith
        have pd : 0 < d := by
          by_contra h
          have := mul_nonpos_of_nonneg_of_nonpos t0.le (not_lt.1 h)
          linarith
        set u := g0 / d with hu
        have u0 : 0 < u := div_pos p0 pd
        have ut : u < t := (div_lt_iff₀ pd).2 hd0
        have e : dot3 c.normal (lerp3 p q u) = c.w := by
          rw [dot_lerp]
          have : u * d = g0 := div_mul_cancel₀ _ pd.ne'
          rw [hd] at this
          linarith
        refine ⟨u, u0, by linarith, ⟨fun p' hp' => ?_, c, by simp, e⟩, fun s hs h => grow hpc u0 e s hs (h c (by simp))⟩
        rcases List.mem_cons.1 hp' with rfl | hp'
        · exact e.ge
        · have k1 := hps p' hp'
          have k2 := h1 p' hp'
          rw [dot_lerp] at k2 ⊢
          nlinarith

/-- A way out of the union of two convex sets, each of which has the rim of the other inside it or in `B`, meets `B`. -/
theorem two_convex {B : Set (V3 K)} {c1 c2 : List (Plane K)} (h12 : ∀ v, OnRim c1 v → v ∈ B ∨ InFront c2 v) (h21 : ∀ v, OnRim c2 v → v ∈ B ∨ InFront c1 v) {p q : V3 K}
    (hp : InFront c1 p ∨ InFront c2 p) (hq : ¬ (InFront c1 q ∨ InFront c2 q)) : ∃ t, 0 ≤ t ∧ t ≤ 1 ∧ lerp3 p q t ∈ B := by
  have step : ∀ {c1 c2 : List (Plane K)}, (∀ v, OnRim c1 v → v ∈ B ∨ InFront c2 v) → (∀ v, OnRim c2 v → v ∈ B ∨ InFront c1 v) → InFront c1 p → ¬ InFront c1 q → ¬ InFront c2 q → ∃ t, 0 ≤ t ∧ t ≤ 1 ∧ lerp3 p q t ∈ B := by
    intro c1 c2 h12 h21 hp hq1 hq2
    obtain ⟨t, t0, t1, h1, h2⟩ := leave hp hq1
    rcases h12 _ h1 with h | h
    · exact ⟨t, t0.le, t1, h⟩
    · obtain ⟨s, s0, s1, h3, -⟩ := leave h hq2
      have e : lerp3 (lerp3 p q t) q s = lerp3 p q (t + s * (1 - t)) := by ext <;> simp only [lerp3] <;> ring
      have l1 : t ≤ t + s * (1 - t) := by nlinarith
      have l2 : t + s * (1 - t) ≤ 1 := by nlinarith
      rw [e] at h3
      rcases h21 _ h3 with h | h
      · exact ⟨_, by linarith, l2, h⟩
      · exact absurd h (h2 _ l1)
  push Not at hq
  rcases hp with hp | hp
  · exact step h12 h21 hp hq.1 hq.2
  · exact step h21 h12 hp hq.2 hq.1

theorem on_rect {P : RPLC K} {f : List Int} (hf : f ∈ P.facets) {a b c d v : V3 K} (hc : corners P f = [a, b, c, d]) {s t : K} (s0 : 0 ≤ s) (s1 : s ≤ 1) (t0 : 0 ≤ t) (t1 : t ≤ 1)
    (hv : v = lerp3 (lerp3 a b s) (lerp3 d c s) t) : OnFacets3 P v := by
  refine ⟨f, hf, ?_⟩
  rw [hc, hv]
  exact .seg (.seg (.pt (by simp)) (.pt (by simp)) s0 s1) (.seg (.pt (by simp)) (.pt (by simp)) s0 s1) t0 t1
end

/-! ### An example that is not convex: the prism over an L -/

/-- The L has corners (0, 0), (2, 0), (2, 1), (1, 1), (1, 2), (0, 2); top and bottom are two rectangles each. -/
def prismL : RPLC ℚ where
  points := [0, 0, 0, 2, 0, 0, 2, 1, 0, 1, 1, 0, 1, 2, 0, 0, 2, 0, 0, 1, 0, 0, 0, 1, 2, 0, 1, 2, 1, 1, 1, 1, 1, 1, 2, 1, 0, 2, 1, 0, 1, 1]
  facets := [[0, 6, 2, 1], [6, 5, 4, 3], [7, 8, 9, 13], [13, 10, 11, 12], [0, 1, 8, 7], [1, 2, 9, 8], [2, 3, 10, 9], [3, 4, 11, 10], [4, 5, 12, 11], [5, 0, 7, 12]]

/-- What is inside it. -/
def insideL : Set (V3 ℚ) := {q | 0 < q.z ∧ q.z < 1 ∧ ((0 < q.x ∧ q.x < 2 ∧ 0 < q.y ∧ q.y < 1) ∨ (0 < q.x ∧ q.x < 1 ∧ 0 < q.y ∧ q.y < 2))}

theorem on_bot1 {v : V3 ℚ} (h : v.z = 0) (h1 : 0 ≤ v.x) (h2 : v.x ≤ 2) (h3 : 0 ≤ v.y) (h4 : v.y ≤ 1) : OnFacets3 prismL v := by
  refine on_rect (f := [0, 6, 2, 1]) (by decide) (a := ⟨0, 0, 0⟩) (b := ⟨0, 1, 0⟩) (c := ⟨2, 1, 0⟩) (d := ⟨2, 0, 0⟩) (by decide +kernel) (s := ((v.y - 0) / 1)) (t := ((v.x - 0) / 2)) (by linarith) (by linarith) (by linarith) (by linarith) ?_
  ext <;> simp only [lerp3, h] <;> ring

theorem on_bot2 {v : V3 ℚ} (h : v.z = 0) (h1 : 0 ≤ v.x) (h2 : v.x ≤ 1) (h3 : 1 ≤ v.y) (h4 : v.y ≤ 2) : OnFacets3 prismL v := by
  refine on_rect (f := [6, 5, 4, 3]) (by decide) (a := ⟨0, 1, 0⟩) (b := ⟨0, 2, 0⟩) (c := ⟨1, 2, 0⟩) (d := ⟨1, 1, 0⟩) (by decide +kernel) (s := ((v.y - 1) / 1)) (t := ((v.x - 0) / 1)) (by linarith) (by linarith) (by linarith) (by linarith) ?_
  ext <;> simp only [lerp3, h] <;> ring

theorem on_top1 {v : V3 ℚ} (h : v.z = 1) (h1 : 0 ≤ v.x) (h2 : v.x ≤ 2) (h3 : 0 ≤ v.y) (h4 : v.y ≤ 1) : OnFacets3 prismL v := by
  refine on_rect (f := [7, 8, 9, 13]) (by decide) (a := ⟨0, 0, 1⟩) (b := ⟨2, 0, 1⟩) (c := ⟨2, 1, 1⟩) (d := ⟨0, 1, 1⟩) (by decide +kernel) (s := ((v.x - 0) / 2)) (t := ((v.y - 0) / 1)) (by linarith) (by linarith) (by linarith) (by linarith) ?_
  ext <;> simp only [lerp3, h] <;> ring

theorem on_top2 {v : V3 ℚ} (h : v.z = 1) (h1 : 0 ≤ v.x) (h2 : v.x ≤ 1) (h3 : 1 ≤ v.y) (h4 : v.y ≤ 2) : OnFacets3 prismL v := by
  refine on_rect (f := [13, 10, 11, 12]) (by decide) (a := ⟨0, 1, 1⟩) (b := ⟨1, 1, 1⟩) (c := ⟨1, 2, 1⟩) (d := ⟨0, 2, 1⟩) (by decide +kernel) (s := ((v.x - 0) / 1)) (t := ((v.y - 1) / 1)) (by linarith) (by linarith) (by linarith) (by linarith) ?_
  ext <;> simp only [lerp3, h] <;> ring

theorem on_front {v : V3 ℚ} (h : v.y = 0) (h1 : 0 ≤ v.x) (h2 : v.x ≤ 2) (h3 : 0 ≤ v.z) (h4 : v.z ≤ 1) : OnFacets3 prismL v := by
  refine on_rect (f := [0, 1, 8, 7]) (by decide) (a := ⟨0, 0, 0⟩) (b := ⟨2, 0, 0⟩) (c := ⟨2, 0, 1⟩) (d := ⟨0, 0, 1⟩) (by decide +kernel) (s := ((v.x - 0) / 2)) (t := ((v.z - 0) / 1)) (by linarith) (by linarith) (by linarith) (by linarith) ?_
  ext <;> simp only [lerp3, h] <;> ring

theorem on_right {v : V3 ℚ} (h : v.x = 2) (h1 : 0 ≤ v.y) (h2 : v.y ≤ 1) (h3 : 0 ≤ v.z) (h4 : v.z ≤ 1) : OnFacets3 prismL v := by
  refine on_rect (f := [1, 2, 9, 8]) (by decide) (a := ⟨2, 0, 0⟩) (b := ⟨2, 1, 0⟩) (c := ⟨2, 1, 1⟩) (d := ⟨2, 0, 1⟩) (by decide +kernel) (s := ((v.y - 0) / 1)) (t := ((v.z - 0) / 1)) (by linarith) (by linarith) (by linarith) (by linarith) ?_
  ext <;> simp only [lerp3, h] <;> ring

theorem on_mid {v : V3 ℚ} (h : v.y = 1) (h1 : 1 ≤ v.x) (h2 : v.x ≤ 2) (h3 : 0 ≤ v.z) (h4 : v.z ≤ 1) : OnFacets3 prismL v := by
  refine on_rect (f := [2, 3, 10, 9]) (by decide) (a := ⟨2, 1, 0⟩) (b := ⟨1, 1, 0⟩) (c := ⟨1, 1, 1⟩) (d := ⟨2, 1, 1⟩) (by decide +kernel) (s := ((2 - v.x) / 1)) (t := ((v.z - 0) / 1)) (by linarith) (by linarith) (by linarith) (by linarith) ?_
  ext <;> simp only [lerp3, h] <;> ring

theorem on_midx {v : V3 ℚ} (h : v.x = 1) (h1 : 1 ≤ v.y) (h2 : v.y ≤ 2) (h3 : 0 ≤ v.z) (h4 : v.z ≤ 1) : OnFacets3 prismL v := by
  refine on_rect (f := [3, 4, 11, 10]) (by decide) (a := ⟨1, 1, 0⟩) (b := ⟨1, 2, 0⟩) (c := ⟨1, 2, 1⟩) (d := ⟨1, 1, 1⟩) (by decide +kernel) (s := ((v.y - 1) / 1)) (t := ((v.z - 0) / 1)) (by linarith) (by linarith) (by linarith) (by linarith) ?_
  ext <;> simp only [lerp3, h] <;> ring

theorem on_back {v : V3 ℚ} (h : v.y = 2) (h1 : 0 ≤ v.x) (h2 : v.x ≤ 1) (h3 : 0 ≤ v.z) (h4 : v.z ≤ 1) : OnFacets3 prismL v := by
  refine on_rect (f := [4, 5, 12, 11]) (by decide) (a := ⟨1, 2, 0⟩) (b := ⟨0, 2, 0⟩) (c := ⟨0, 2, 1⟩) (d := ⟨1, 2, 1⟩) (by decide +kernel) (s := ((1 - v.x) / 1)) (t := ((v.z - 0) / 1)) (by linarith) (by linarith) (by linarith) (by linarith) ?_
  ext <;> simp only [lerp3, h] <;> ring

theorem on_left {v : V3 ℚ} (h : v.x = 0) (h1 : 0 ≤ v.y) (h2 : v.y ≤ 2) (h3 : 0 ≤ v.z) (h4 : v.z ≤ 1) : OnFacets3 prismL v := by
  refine on_rect (f := [5, 0, 7, 12]) (by decide) (a := ⟨0, 2, 0⟩) (b := ⟨0, 0, 0⟩) (c := ⟨0, 0, 1⟩) (d := ⟨0, 2, 1⟩) (by decide +kernel) (s := ((2 - v.y) / 2)) (t := ((v.z - 0) / 1)) (by linarith) (by linarith) (by linarith) (by linarith) ?_
  ext <;> simp only [lerp3, h] <;> ring

theorem out_bot1 {c : V3 ℚ} (h : Inner (corners prismL [0, 6, 2, 1]) c) : ∀ t, 0 < t → t < 1 / 4 → c - V3.scale t (normalOf prismL [0, 6, 2, 1]) ∈ insideL ∧ c + V3.scale t (normalOf prismL [0, 6, 2, 1]) ∉ insideL := by
  have h0 := hull_ge (n := ⟨0, 0, 1⟩) (c := 0) (by decide +kernel) h.1
  have h0' := hull_le (n := ⟨0, 0, 1⟩) (c := 0) (by decide +kernel) h.1
  have h1 := h.2 ⟨1, 0, 0⟩ 0 (by decide +kernel) (by decide +kernel)
  have h2 := h.2 ⟨-1, 0, 0⟩ (-2) (by decide +kernel) (by decide +kernel)
  have h3 := h.2 ⟨0, 1, 0⟩ 0 (by decide +kernel) (by decide +kernel)
  have h4 := h.2 ⟨0, -1, 0⟩ (-1) (by decide +kernel) (by decide +kernel)
  have en : normalOf prismL [0, 6, 2, 1] = ⟨0, 0, -2⟩ := by decide +kernel
  simp only [dot3] at h0 h0' h1 h2 h3 h4
  intro t t0 t1
  rw [en]
  simp only [insideL, Set.mem_ofPred_eq, V3.scale, V3.sub_x, V3.sub_y, V3.sub_z, V3.add_x, V3.add_y, V3.add_z]
  constructor
  · exact ⟨by linarith, by linarith, Or.inl ⟨by linarith, by linarith, by linarith, by linarith⟩⟩
  · rintro ⟨g1, g2, ⟨g3, g4, g5, g6⟩ | ⟨g3, g4, g5, g6⟩⟩ <;> linarith

theorem out_bot2 {c : V3 ℚ} (h : Inner (corners prismL [6, 5, 4, 3]) c) : ∀ t, 0 < t → t < 1 / 4 → c - V3.scale t (normalOf prismL [6, 5, 4, 3]) ∈ insideL ∧ c + V3.scale t (normalOf prismL [6, 5, 4, 3]) ∉ insideL := by
  have h0 := hull_ge (n := ⟨0, 0, 1⟩) (c := 0) (by decide +kernel) h.1
  have h0' := hull_le (n := ⟨0, 0, 1⟩) (c := 0) (by decide +kernel) h.1
  have h1 := h.2 ⟨1, 0, 0⟩ 0 (by decide +kernel) (by decide +kernel)
  have h2 := h.2 ⟨-1, 0, 0⟩ (-1) (by decide +kernel) (by decide +kernel)
  have h3 := h.2 ⟨0, 1, 0⟩ 1 (by decide +kernel) (by decide +kernel)
  have h4 := h.2 ⟨0, -1, 0⟩ (-2) (by decide +kernel) (by decide +kernel)
  have en : normalOf prismL [6, 5, 4, 3] = ⟨0, 0, -1⟩ := by decide +kernel
  simp only [dot3] at h0 h0' h1 h2 h3 h4
  intro t t0 t1
  rw [en]
  simp only [insideL, Set.mem_ofPred_eq, V3.scale, V3.sub_x, V3.sub_y, V3.sub_z, V3.add_x, V3.add_y, V3.add_z]
  constructor
  · exact ⟨by linarith, by linarith, Or.inr ⟨by linarith, by linarith, by linarith, by linarith⟩⟩
  · rintro ⟨g1, g2, ⟨g3, g4, g5, g6⟩ | ⟨g3, g4, g5, g6⟩⟩ <;> linarith

theorem out_top1 {c : V3 ℚ} (h : Inner (corners prismL [7, 8, 9, 13]) c) : ∀ t, 0 < t → t < 1 / 4 → c - V3.scale t (normalOf prismL [7, 8, 9, 13]) ∈ insideL ∧ c + V3.scale t (normalOf prismL [7, 8, 9, 13]) ∉ insideL := by
  have h0 := hull_ge (n := ⟨0, 0, 1⟩) (c := 1) (by decide +kernel) h.1
  have h0' := hull_le (n := ⟨0, 0, 1⟩) (c := 1) (by decide +kernel) h.1
  have h1 := h.2 ⟨1, 0, 0⟩ 0 (by decide +kernel) (by decide +kernel)
  have h2 := h.2 ⟨-1, 0, 0⟩ (-2) (by decide +kernel) (by decide +kernel)
  have h3 := h.2 ⟨0, 1, 0⟩ 0 (by decide +kernel) (by decide +kernel)
  have h4 := h.2 ⟨0, -1, 0⟩ (-1) (by decide +kernel) (by decide +kernel)
  have en : normalOf prismL [7, 8, 9, 13] = ⟨0, 0, 2⟩ := by decide +kernel
  simp only [dot3] at h0 h0' h1 h2 h3 h4
  intro t t0 t1
  rw [en]
  simp only [insideL, Set.mem_ofPred_eq, V3.scale, V3.sub_x, V3.sub_y, V3.sub_z, V3.add_x, V3.add_y, V3.add_z]
  constructor
  · exact ⟨by linarith, by linarith, Or.inl ⟨by linarith, by linarith, by linarith, by linarith⟩⟩
  · rintro ⟨g1, g2, ⟨g3, g4, g5, g6⟩ | ⟨g3, g4, g5, g6⟩⟩ <;> linarith

theorem out_top2 {c : V3 ℚ} (h : Inner (corners prismL [13, 10, 11, 12]) c) : ∀ t, 0 < t → t < 1 / 4 → c - V3.scale t (normalOf prismL [13, 10, 11, 12]) ∈ insideL ∧ c + V3.scale t (normalOf prismL [13, 10, 11, 12]) ∉ insideL := by
  have h0 := hull_ge (n := ⟨0, 0, 1⟩) (c := 1) (by decide +kernel) h.1
  have h0' := hull_le (n := ⟨0, 0, 1⟩) (c := 1) (by decide +kernel) h.1
  have h1 := h.2 ⟨1, 0, 0⟩ 0 (by decide +kernel) (by decide +kernel)
  have h2 := h.2 ⟨-1, 0, 0⟩ (-1) (by decide +kernel) (by decide +kernel)
  have h3 := h.2 ⟨0, 1, 0⟩ 1 (by decide +kernel) (by decide +kernel)
  have h4 := h.2 ⟨0, -1, 0⟩ (-2) (by decide +kernel) (by decide +kernel)
  have en : normalOf prismL [13, 10, 11, 12] = ⟨0, 0, 1⟩ := by decide +kernel
  simp only [dot3] at h0 h0' h1 h2 h3 h4
  intro t t0 t1
  rw [en]
  simp only [insideL, Set.mem_ofPred_eq, V3.scale, V3.sub_x, V3.sub_y, V3.sub_z, V3.add_x, V3.add_y, V3.add_z]
  constructor
  · exact ⟨by linarith, by linarith, Or.inr ⟨by linarith, by linarith, by linarith, by linarith⟩⟩
  · rintro ⟨g1, g2, ⟨g3, g4, g5, g6⟩ | ⟨g3, g4, g5, g6⟩⟩ <;> linarith

theorem out_front {c : V3 ℚ} (h : Inner (corners prismL [0, 1, 8, 7]) c) : ∀ t, 0 < t → t < 1 / 4 → c - V3.scale t (normalOf prismL [0, 1, 8, 7]) ∈ insideL ∧ c + V3.scale t (normalOf prismL [0, 1, 8, 7]) ∉ insideL := by
  have h0 := hull_ge (n := ⟨0, 1, 0⟩) (c := 0) (by decide +kernel) h.1
  have h0' := hull_le (n := ⟨0, 1, 0⟩) (c := 0) (by decide +kernel) h.1
  have h1 := h.2 ⟨1, 0, 0⟩ 0 (by decide +kernel) (by decide +kernel)
  have h2 := h.2 ⟨-1, 0, 0⟩ (-2) (by decide +kernel) (by decide +kernel)
  have h3 := h.2 ⟨0, 0, 1⟩ 0 (by decide +kernel) (by decide +kernel)
  have h4 := h.2 ⟨0, 0, -1⟩ (-1) (by decide +kernel) (by decide +kernel)
  have en : normalOf prismL [0, 1, 8, 7] = ⟨0, -2, 0⟩ := by decide +kernel
  simp only [dot3] at h0 h0' h1 h2 h3 h4
  intro t t0 t1
  rw [en]
  simp only [insideL, Set.mem_ofPred_eq, V3.scale, V3.sub_x, V3.sub_y, V3.sub_z, V3.add_x, V3.add_y, V3.add_z]
  constructor
  · exact ⟨by linarith, by linarith, Or.inl ⟨by linarith, by linarith, by linarith, by linarith⟩⟩
  · rintro ⟨g1, g2, ⟨g3, g4, g5, g6⟩ | ⟨g3, g4, g5, g6⟩⟩ <;> linarith

theorem out_right {c : V3 ℚ} (h : Inner (corners prismL [1, 2, 9, 8]) c) : ∀ t, 0 < t → t < 1 / 4 → c - V3.scale t (normalOf prismL [1, 2, 9, 8]) ∈ insideL ∧ c + V3.scale t (normalOf prismL [1, 2, 9, 8]) ∉ insideL := by
  have h0 := hull_ge (n := ⟨1, 0, 0⟩) (c := 2) (by decide +kernel) h.1
  have h0' := hull_le (n := ⟨1, 0, 0⟩) (c := 2) (by decide +kernel) h.1
  have h1 := h.2 ⟨0, 1, 0⟩ 0 (by decide +kernel) (by decide +kernel)
  have h2 := h.2 ⟨0, -1, 0⟩ (-1) (by decide +kernel) (by decide +kernel)
  have h3 := h.2 ⟨0, 0, 1⟩ 0 (by decide +kernel) (by decide +kernel)
  have h4 := h.2 ⟨0, 0, -1⟩ (-1) (by decide +kernel) (by decide +kernel)
  have en : normalOf prismL [1, 2, 9, 8] = ⟨1, 0, 0⟩ := by decide +kernel
  simp only [dot3] at h0 h0' h1 h2 h3 h4
  intro t t0 t1
  rw [en]
  simp only [insideL, Set.mem_ofPred_eq, V3.scale, V3.sub_x, V3.sub_y, V3.sub_z, V3.add_x, V3.add_y, V3.add_z]
  constructor
  · exact ⟨by linarith, by linarith, Or.inl ⟨by linarith, by linarith, by linarith, by linarith⟩⟩
  · rintro ⟨g1, g2, ⟨g3, g4, g5, g6⟩ | ⟨g3, g4, g5, g6⟩⟩ <;> linarith

theorem out_mid {c : V3 ℚ} (h : Inner (corners prismL [2, 3, 10, 9]) c) : ∀ t, 0 < t → t < 1 / 4 → c - V3.scale t (normalOf prismL [2, 3, 10, 9]) ∈ insideL ∧ c + V3.scale t (normalOf prismL [2, 3, 10, 9]) ∉ insideL := by
  have h0 := hull_ge (n := ⟨0, 1, 0⟩) (c := 1) (by decide +kernel) h.1
  have h0' := hull_le (n := ⟨0, 1, 0⟩) (c := 1) (by decide +kernel) h.1
  have h1 := h.2 ⟨1, 0, 0⟩ 1 (by decide +kernel) (by decide +kernel)
  have h2 := h.2 ⟨-1, 0, 0⟩ (-2) (by decide +kernel) (by decide +kernel)
  have h3 := h.2 ⟨0, 0, 1⟩ 0 (by decide +kernel) (by decide +kernel)
  have h4 := h.2 ⟨0, 0, -1⟩ (-1) (by decide +kernel) (by decide +kernel)
  have en : normalOf prismL [2, 3, 10, 9] = ⟨0, 1, 0⟩ := by decide +kernel
  simp only [dot3] at h0 h0' h1 h2 h3 h4
  intro t t0 t1
  rw [en]
  simp only [insideL, Set.mem_ofPred_eq, V3.scale, V3.sub_x, V3.sub_y, V3.sub_z, V3.add_x, V3.add_y, V3.add_z]
  constructor
  · exact ⟨by linarith, by linarith, Or.inl ⟨by linarith, by linarith, by linarith, by linarith⟩⟩
  · rintro ⟨g1, g2, ⟨g3, g4, g5, g6⟩ | ⟨g3, g4, g5, g6⟩⟩ <;> linarith

theorem out_midx {c : V3 ℚ} (h : Inner (corners prismL [3, 4, 11, 10]) c) : ∀ t, 0 < t → t < 1 / 4 → c - V3.scale t (normalOf prismL [3, 4, 11, 10]) ∈ insideL ∧ c + V3.scale t (normalOf prismL [3, 4, 11, 10]) ∉ insideL := by
  have h0 := hull_ge (n := ⟨1, 0, 0⟩) (c := 1) (by decide +kernel) h.1
  have h0' := hull_le (n := ⟨1, 0, 0⟩) (c := 1) (by decide +kernel) h.1
  have h1 := h.2 ⟨0, 1, 0⟩ 1 (by decide +kernel) (by decide +kernel)
  have h2 := h.2 ⟨0, -1, 0⟩ (-2) (by decide +kernel) (by decide +kernel)
  have h3 := h.2 ⟨0, 0, 1⟩ 0 (by decide +kernel) (by decide +kernel)
  have h4 := h.2 ⟨0, 0, -1⟩ (-1) (by decide +kernel) (by decide +kernel)
  have en : normalOf prismL [3, 4, 11, 10] = ⟨1, 0, 0⟩ := by decide +kernel
  simp only [dot3] at h0 h0' h1 h2 h3 h4
  intro t t0 t1
  rw [en]
  simp only [insideL, Set.mem_ofPred_eq, V3.scale, V3.sub_x, V3.sub_y, V3.sub_z, V3.add_x, V3.add_y, V3.add_z]
  constructor
  · exact ⟨by linarith, by linarith, Or.inr ⟨by linarith, by linarith, by linarith, by linarith⟩⟩
  · rintro ⟨g1, g2, ⟨g3, g4, g5, g6⟩ | ⟨g3, g4, g5, g6⟩⟩ <;> linarith

theorem out_back {c : V3 ℚ} (h : Inner (corners prismL [4, 5, 12, 11]) c) : ∀ t, 0 < t → t < 1 / 4 → c - V3.scale t (normalOf prismL [4, 5, 12, 11]) ∈ insideL ∧ c + V3.scale t (normalOf prismL [4, 5, 12, 11]) ∉ insideL := by
  have h0 := hull_ge (n := ⟨0, 1, 0⟩) (c := 2) (by decide +kernel) h.1
  have h0' := hull_le (n := ⟨0, 1, 0⟩) (c := 2) (by decide +kernel) h.1
  have h1 := h.2 ⟨1, 0, 0⟩ 0 (by decide +kernel) (by decide +kernel)
  have h2 := h.2 ⟨-1, 0, 0⟩ (-1) (by decide +kernel) (by decide +kernel)
  have h3 := h.2 ⟨0, 0, 1⟩ 0 (by decide +kernel) (by decide +kernel)
  have h4 := h.2 ⟨0, 0, -1⟩ (-1) (by decide +kernel) (by decide +kernel)
  have en : normalOf prismL [4, 5, 12, 11] = ⟨0, 1, 0⟩ := by decide +kernel
  simp only [dot3] at h0 h0' h1 h2 h3 h4
  intro t t0 t1
  rw [en]
  simp only [insideL, Set.mem_ofPred_eq, V3.scale, V3.sub_x, V3.sub_y, V3.sub_z, V3.add_x, V3.add_y, V3.add_z]
  constructor
  · exact ⟨by linarith, by linarith, Or.inr ⟨by linarith, by linarith, by linarith, by linarith⟩⟩
  · rintro ⟨g1, g2, ⟨g3, g4, g5, g6⟩ | ⟨g3, g4, g5, g6⟩⟩ <;> linarith

theorem out_left {c : V3 ℚ} (h : Inner (corners prismL [5, 0, 7, 12]) c) : ∀ t, 0 < t → t < 1 / 4 → c - V3.scale t (normalOf prismL [5, 0, 7, 12]) ∈ insideL ∧ c + V3.scale t (normalOf prismL [5, 0, 7, 12]) ∉ insideL := by
  have h0 := hull_ge (n := ⟨1, 0, 0⟩) (c := 0) (by decide +kernel) h.1
  have h0' := hull_le (n := ⟨1, 0, 0⟩) (c := 0) (by decide +kernel) h.1
  have h1 := h.2 ⟨0, 1, 0⟩ 0 (by decide +kernel) (by decide +kernel)
  have h2 := h.2 ⟨0, -1, 0⟩ (-2) (by decide +kernel) (by decide +kernel)
  have h3 := h.2 ⟨0, 0, 1⟩ 0 (by decide +kernel) (by decide +kernel)
  have h4 := h.2 ⟨0, 0, -1⟩ (-1) (by decide +kernel) (by decide +kernel)
  have en : normalOf prismL [5, 0, 7, 12] = ⟨-2, 0, 0⟩ := by decide +kernel
  simp only [dot3] at h0 h0' h1 h2 h3 h4
  intro t t0 t1
  rw [en]
  simp only [insideL, Set.mem_ofPred_eq, V3.scale, V3.sub_x, V3.sub_y, V3.sub_z, V3.add_x, V3.add_y, V3.add_z]
  constructor
  · exact ⟨by linarith, by linarith, Or.inr ⟨by linarith, by linarith, by linarith, by linarith⟩⟩
  · rintro ⟨g1, g2, ⟨g3, g4, g5, g6⟩ | ⟨g3, g4, g5, g6⟩⟩ <;> linarith

/-- The two boxes that the L is made of. -/
def boxL1 : List (Plane ℚ) := [⟨⟨1, 0, 0⟩, 0⟩, ⟨⟨-1, 0, 0⟩, -2⟩, ⟨⟨0, 1, 0⟩, 0⟩, ⟨⟨0, -1, 0⟩, -1⟩, ⟨⟨0, 0, 1⟩, 0⟩, ⟨⟨0, 0, -1⟩, -1⟩]
def boxL2 : List (Plane ℚ) := [⟨⟨1, 0, 0⟩, 0⟩, ⟨⟨-1, 0, 0⟩, -1⟩, ⟨⟨0, 1, 0⟩, 0⟩, ⟨⟨0, -1, 0⟩, -2⟩, ⟨⟨0, 0, 1⟩, 0⟩, ⟨⟨0, 0, -1⟩, -1⟩]

theorem boxL1_iff (v : V3 ℚ) : InFront boxL1 v ↔ 0 < v.x ∧ v.x < 2 ∧ 0 < v.y ∧ v.y < 1 ∧ 0 < v.z ∧ v.z < 1 := by
  simp [InFront, boxL1, dot3]
theorem boxL2_iff (v : V3 ℚ) : InFront boxL2 v ↔ 0 < v.x ∧ v.x < 1 ∧ 0 < v.y ∧ v.y < 2 ∧ 0 < v.z ∧ v.z < 1 := by
  simp [InFront, boxL2, dot3]

theorem insideL_iff (v : V3 ℚ) : v ∈ insideL ↔ InFront boxL1 v ∨ InFront boxL2 v := by
  rw [boxL1_iff, boxL2_iff]
  simp only [insideL, Set.mem_ofPred_eq]
  tauto

theorem boxes12 (v : V3 ℚ) (h : OnRim boxL1 v) : v ∈ {q | OnFacets3 prismL q} ∨ InFront boxL2 v := by
  obtain ⟨h1, h2⟩ := h
  simp [boxL1, dot3] at h1 h2
  obtain ⟨x0, x1, y0, y1, z0, z1⟩ := h1
  rw [boxL2_iff]
  simp only [Set.mem_ofPred_eq]
  rcases h2 with h | h | h | h | h | h
  · exact Or.inl (on_left h y0 (by linarith) z0 z1)
  · exact Or.inl (on_right h y0 y1 z0 z1)
  · exact Or.inl (on_front h x0 x1 z0 z1)
  · rcases le_or_gt 1 v.x with hx | hx
    · exact Or.inl (on_mid h hx x1 z0 z1)
    · rcases x0.eq_or_lt with hx0 | hx0
      · exact Or.inl (on_left hx0.symm y0 (by linarith) z0 z1)
      · rcases z0.eq_or_lt with hz | hz
        · exact Or.inl (on_bot1 hz.symm x0 x1 y0 y1)
        · rcases z1.eq_or_lt with hz1 | hz1
          · exact Or.inl (on_top1 hz1 x0 x1 y0 y1)
          · exact Or.inr ⟨hx0, hx, by linarith, by linarith, hz, hz1⟩
  · exact Or.inl (on_bot1 h x0 x1 y0 y1)
  · exact Or.inl (on_top1 h x0 x1 y0 y1)

theorem boxes21 (v : V3 ℚ) (h : OnRim boxL2 v) : v ∈ {q | OnFacets3 prismL q} ∨ InFront boxL1 v := by
  obtain ⟨h1, h2⟩ := h
  simp [boxL2, dot3] at h1 h2
  obtain ⟨x0, x1, y0, y1, z0, z1⟩ := h1
  rw [boxL1_iff]
  simp only [Set.mem_ofPred_eq]
  rcases h2 with h | h | h | h | h | h
  · exact Or.inl (on_left h y0 y1 z0 z1)
  · rcases le_or_gt 1 v.y with hy | hy
    · exact Or.inl (on_midx h hy y1 z0 z1)
    · rcases y0.eq_or_lt with hy0 | hy0
      · exact Or.inl (on_front hy0.symm x0 (by linarith) z0 z1)
      · rcases z0.eq_or_lt with hz | hz
        · exact Or.inl (on_bot1 hz.symm x0 (by linarith) y0 hy.le)
        · rcases z1.eq_or_lt with hz1 | hz1
          · exact Or.inl (on_top1 hz1 x0 (by linarith) y0 hy.le)
          · exact Or.inr ⟨by linarith, by linarith, hy0, hy, hz, hz1⟩
  · exact Or.inl (on_front h x0 (by linarith) z0 z1)
  · exact Or.inl (on_back h x0 x1 z0 z1)
  · rcases le_total v.y 1 with hy | hy
    · exact Or.inl (on_bot1 h x0 (by linarith) y0 hy)
    · exact Or.inl (on_bot2 h x0 x1 hy y1)
  · rcases le_total v.y 1 with hy | hy
    · exact Or.inl (on_top1 h x0 (by linarith) y0 hy)
    · exact Or.inl (on_top2 h x0 x1 hy y1)

theorem boundsL : Bounds prismL insideL where
  four := by decide
  good := by
    have key : ∀ f ∈ prismL.facets, (∀ i ∈ f, 0 ≤ i ∧ 3 * i.toNat + 2 < prismL.points.length) ∧ f.length = 4 ∧ (∀ v ∈ corners prismL f, above prismL f v = 0)
        ∧ ∀ i < 4, ∀ j < 4, ∀ k < 4, i < j → j < k →
          0 < turn (cross3 ((corners prismL f).getD 1 0 - (corners prismL f).getD 0 0) ((corners prismL f).getD 2 0 - (corners prismL f).getD 0 0)) ((corners prismL f).getD i 0) ((corners prismL f).getD j 0) ((corners prismL f).getD k 0) := by
      decide +kernel
    intro f hf
    obtain ⟨a, b, c, d⟩ := key f hf
    exact ⟨a, by omega, c, fun i j k hij hjk hk => d i (by omega) j (by omega) k (by omega) hij hjk⟩
  separates := by
    have one : ∀ p q, (∀ t, 0 ≤ t → t ≤ 1 → ¬ OnFacets3 prismL (lerp3 p q t)) → p ∈ insideL → q ∈ insideL := by
      intro p q h hp
      by_contra hq
      obtain ⟨t, t0, t1, ht⟩ := two_convex (B := {q | OnFacets3 prismL q}) boxes12 boxes21 ((insideL_iff p).1 hp) (fun h => hq ((insideL_iff q).2 h))
      exact h t t0 t1 ht
    intro p q h
    refine ⟨one p q h, one q p fun t t0 t1 => ?_⟩
    have := h (1 - t) (by linarith) (by linarith)
    rwa [show lerp3 p q (1 - t) = lerp3 q p t by ext <;> simp only [lerp3] <;> ring] at this
  outward := by
    intro f hf c hc
    refine ⟨1 / 4, by norm_num, ?_⟩
    simp only [prismL, List.mem_cons, List.not_mem_nil, or_false] at hf
    rcases hf with rfl | rfl | rfl | rfl | rfl | rfl | rfl | rfl | rfl | rfl
    · exact out_bot1 hc
    · exact out_bot2 hc
    · exact out_top1 hc
    · exact out_top2 hc
    · exact out_front hc
    · exact out_right hc
    · exact out_mid hc
    · exact out_midx hc
    · exact out_back hc
    · exact out_left hc

/-! ### Solids moved -/

section
variable {K : Type} [Field K] [LinearOrder K] [IsStrictOrderedRing K]

theorem hull_shift {vs : List (V3 K)} {d q : V3 K} (h : Hull3 vs q) : Hull3 (vs.map (· + d)) (q + d) := by
  induction h with
  | pt h => exact .pt (List.mem_map_of_mem h)
  | @seg a b t _ _ t0 t1 iha ihb =>
    have e : lerp3 a b t + d = lerp3 (a + d) (b + d) t := by ext <;> simp [lerp3] <;> ring
    rw [e]
    exact .seg iha ihb t0 t1

theorem hull_unshift {vs : List (V3 K)} {d q : V3 K} (h : Hull3 (vs.map (· + d)) q) : Hull3 vs (q - d) := by
  have := hull_shift (d := ⟨-d.x, -d.y, -d.z⟩) h
  rw [List.map_map] at this
  have e1 : ((fun v : V3 K => v + ⟨-d.x, -d.y, -d.z⟩) ∘ fun v => v + d) = id := by
    funext v; ext <;> simp
  have e2 : q + (⟨-d.x, -d.y, -d.z⟩ : V3 K) = q - d := by ext <;> simp <;> ring
  rwa [e1, List.map_id, e2] at this

theorem dot_add3 (n a b : V3 K) : dot3 n (a + b) = dot3 n a + dot3 n b := by simp [dot3]; ring

/-- A solid moved by `d`. -/
theorem Bounds.shift {P Q : RPLC K} {S : Set (V3 K)} (h : Bounds P S) (d : V3 K) (hf : Q.facets = P.facets) (hc : ∀ f ∈ P.facets, corners Q f = (corners P f).map (· + d)) (hg : ∀ f ∈ Q.facets, GoodFacet Q f) :
    Bounds Q {q | q - d ∈ S} where
  four := by rw [hf]; exact h.four
  good := hg
  separates := by
    intro p q hpq
    refine h.separates (p - d) (q - d) fun t t0 t1 => ?_
    rintro ⟨f, hf', hh⟩
    refine hpq t t0 t1 ⟨f, by rwa [hf], ?_⟩
    rw [hc f hf']
    have e : lerp3 p q t = lerp3 (p - d) (q - d) t + d := by ext <;> simp [lerp3] <;> ring
    rw [e]
    exact hull_shift hh
  outward := by
    intro f hf' c hi
    rw [hf] at hf'
    have hlen : 3 ≤ (corners P f).length := by rw [corners, List.length_map]; exact (h.good f hf').three
    rw [hc f hf'] at hi
    have en : normalOf Q f = normalOf P f := by
      have g : ∀ i, i < 3 → (corners Q f).getD i 0 = (corners P f).getD i 0 + d := by
        intro i hi
        rw [hc f hf']
        have : i < (corners P f).length := by omega
        simp [this]
      rw [normalOf, normalOf, g 0 (by omega), g 1 (by omega), g 2 (by omega)]
      ext <;> simp [cross3]
    have hi' : Inner (corners P f) (c - d) := by
      refine ⟨hull_unshift hi.1, fun n w h1 h2 => ?_⟩
      have := hi.2 n (w + dot3 n d) (by
        intro v hv
        obtain ⟨u, hu, rfl⟩ := List.mem_map.1 hv
        rw [dot_add3]; have := h1 u hu; linarith) (by
        obtain ⟨u, hu, hlt⟩ := h2
        exact ⟨u + d, List.mem_map_of_mem hu, by rw [dot_add3]; linarith⟩)
      have e : dot3 n c = dot3 n (c - d) + dot3 n d := by rw [← dot_add3]; congr 1; ext <;> simp
      linarith
    obtain ⟨r, r0, hr⟩ := h.outward f hf' _ hi'
    refine ⟨r, r0, fun t t0 t1 => ?_⟩
    rw [en]
    have e1 : c - V3.scale t (normalOf P f) - d = c - d - V3.scale t (normalOf P f) := by ext <;> simp <;> ring
    have e2 : c + V3.scale t (normalOf P f) - d = c - d + V3.scale t (normalOf P f) := by ext <;> simp <;> ring
    simp only [Set.mem_ofPred_eq, e1, e2]
    exact hr t t0 t1
end

/-- The prism moved by (1/2, 1/2, 1/2). -/
def prismL' : RPLC ℚ where
  points := prismL.points.map (· + 1 / 2)
  facets := prismL.facets

theorem boundsL' : Bounds prismL' {q | q - ⟨1 / 2, 1 / 2, 1 / 2⟩ ∈ insideL} := by
  refine boundsL.shift _ rfl (by decide +kernel) ?_
  have key : ∀ f ∈ prismL'.facets, (∀ i ∈ f, 0 ≤ i ∧ 3 * i.toNat + 2 < prismL'.points.length) ∧ f.length = 4 ∧ (∀ v ∈ corners prismL' f, above prismL' f v = 0)
      ∧ ∀ i < 4, ∀ j < 4, ∀ k < 4, i < j → j < k →
        0 < turn (cross3 ((corners prismL' f).getD 1 0 - (corners prismL' f).getD 0 0) ((corners prismL' f).getD 2 0 - (corners prismL' f).getD 0 0)) ((corners prismL' f).getD i 0) ((corners prismL' f).getD j 0) ((corners prismL' f).getD k 0) := by
    decide +kernel
  intro f hf
  obtain ⟨a, b, c, d⟩ := key f hf
  exact ⟨a, by omega, c, fun i j k hij hjk hk => d i (by omega) j (by omega) k (by omega) hij hjk⟩

end Verif.Csg
