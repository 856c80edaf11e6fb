import Verif.Spec.Geom
import Mathlib.Tactic.Linarith
import Mathlib.Tactic.LinearCombination
import Mathlib.Tactic.FieldSimp
import Mathlib.Tactic.Positivity
import Mathlib.Algebra.BigOperators.Group.Finset.Basic
import Mathlib.Algebra.BigOperators.Ring.Finset
import Mathlib.Algebra.Order.BigOperators.Group.List
import Mathlib.Data.Finset.Card
/- Closed convex surfaces made of triangles, and what becomes of one when the triangles visible from a point are replaced by a cone from that point. -/
namespace Verif.Hull3
open Verif.Geom

/-- Three numbers of points. -/
abbrev Face := Nat × Nat × Nat

/-- The directed sides of a face. -/
def fedges (f : Face) : List (Nat × Nat) := [(f.1, f.2.1), (f.2.1, f.2.2), (f.2.2, f.1)]
def edgesOf (fs : List Face) : List (Nat × Nat) := fs.flatMap fedges

/-- The face started at another corner. -/
def IsRot (f g : Face) : Prop := g = f ∨ g = (f.2.1, f.2.2, f.1) ∨ g = (f.2.2, f.1, f.2.1)

/-- A corner of one of the faces. -/
def Used (fs : List Face) (w : Nat) : Prop := ∃ f ∈ fs, w = f.1 ∨ w = f.2.1 ∨ w = f.2.2

theorem mem_edgesOf {fs : List Face} {u v : Nat} : (u, v) ∈ edgesOf fs ↔ ∃ f ∈ fs, ∃ w, IsRot f (u, v, w) := by
  unfold edgesOf
  rw [List.mem_flatMap]
  constructor
  · rintro ⟨f, hf, h⟩
    refine ⟨f, hf, ?_⟩
    simp only [fedges, List.mem_cons, List.not_mem_nil, or_false, Prod.mk.injEq] at h
    rcases h with ⟨rfl, rfl⟩ | ⟨rfl, rfl⟩ | ⟨rfl, rfl⟩
    · exact ⟨f.2.2, Or.inl rfl⟩
    · exact ⟨f.1, Or.inr (Or.inl rfl)⟩
    · exact ⟨f.2.1, Or.inr (Or.inr rfl)⟩
  · rintro ⟨f, hf, w, h⟩
    refine ⟨f, hf, ?_⟩
    obtain ⟨a, b, c⟩ := f
    simp only [IsRot, Prod.mk.injEq] at h
    simp only [fedges, List.mem_cons, List.not_mem_nil, or_false, Prod.mk.injEq]
    tauto

theorem IsRot.edges {f g : Face} (h : IsRot f g) : ∀ e, e ∈ fedges g ↔ e ∈ fedges f := by
  obtain ⟨a, b, c⟩ := f
  intro e
  rcases h with rfl | rfl | rfl <;> simp only [fedges, List.mem_cons, List.not_mem_nil, or_false] <;> tauto

theorem IsRot.used {f : Face} {a b c : Nat} (h : IsRot f (a, b, c)) (w : Nat) : (w = f.1 ∨ w = f.2.1 ∨ w = f.2.2) ↔ w = a ∨ w = b ∨ w = c := by
  obtain ⟨x, y, z⟩ := f
  rcases h with h | h | h <;> (simp only [Prod.mk.injEq] at h; obtain ⟨rfl, rfl, rfl⟩ := h; try simp only; try tauto)

/-- Rotating all sides. -/
theorem used_iff {fs : List Face} {w : Nat} : Used fs w ↔ ∃ v, (w, v) ∈ edgesOf fs := by
  constructor
  · rintro ⟨⟨a, b, c⟩, hf, h⟩
    rcases h with h | h | h
    · exact ⟨b, mem_edgesOf.2 ⟨_, hf, c, Or.inl (by rw [h])⟩⟩
    · exact ⟨c, mem_edgesOf.2 ⟨_, hf, a, Or.inr (Or.inl (by rw [h]))⟩⟩
    · exact ⟨a, mem_edgesOf.2 ⟨_, hf, b, Or.inr (Or.inr (by rw [h]))⟩⟩
  · rintro ⟨v, h⟩
    obtain ⟨f, hf, x, hr⟩ := mem_edgesOf.1 h
    exact ⟨f, hf, (hr.used w).2 (Or.inl rfl)⟩

theorem used_iff' {fs : List Face} {w : Nat} : Used fs w ↔ ∃ v, (v, w) ∈ edgesOf fs := by
  constructor
  · rintro ⟨⟨a, b, c⟩, hf, h⟩
    rcases h with h | h | h
    · exact ⟨c, mem_edgesOf.2 ⟨_, hf, b, Or.inr (Or.inr (by rw [h]))⟩⟩
    · exact ⟨a, mem_edgesOf.2 ⟨_, hf, c, Or.inl (by rw [h])⟩⟩
    · exact ⟨b, mem_edgesOf.2 ⟨_, hf, a, Or.inr (Or.inl (by rw [h]))⟩⟩
  · rintro ⟨v, h⟩
    obtain ⟨f, hf, x, hr⟩ := mem_edgesOf.1 h
    exact ⟨f, hf, (hr.used w).2 (Or.inr (Or.inl rfl))⟩

section
variable {K : Type} [Field K]

/-- The height of a point above the plane of a face, times the length of its normal. -/
def height (p : Nat → V3 K) (f : Face) (x : V3 K) : K := vol6 (p f.1) (p f.2.1) (p f.2.2) x

theorem vol6_rot (a b c x : V3 K) : vol6 b c a x = vol6 a b c x := by unfold vol6; ring
theorem vol6_swap (a b c x : V3 K) : vol6 b a c x = -vol6 a b c x := by unfold vol6; ring
theorem vol6_last (a b c d : V3 K) : vol6 a b d c = -vol6 a b c d := by unfold vol6; ring
theorem vol6_self1 (a b c : V3 K) : vol6 a b c a = 0 := by unfold vol6; ring
theorem vol6_self2 (a b c : V3 K) : vol6 a b c b = 0 := by unfold vol6; ring
theorem vol6_self3 (a b c : V3 K) : vol6 a b c c = 0 := by unfold vol6; ring
theorem vol6_deg1 (a b x : V3 K) : vol6 a a b x = 0 := by unfold vol6; ring
theorem vol6_deg2 (a b x : V3 K) : vol6 a b b x = 0 := by unfold vol6; ring
theorem vol6_deg3 (a b x : V3 K) : vol6 a b a x = 0 := by unfold vol6; ring

theorem IsRot.height {p : Nat → V3 K} {f g : Face} (h : IsRot f g) (x : V3 K) : height p g x = height p f x := by
  obtain ⟨a, b, c⟩ := f
  rcases h with rfl | rfl | rfl
  · rfl
  · exact vol6_rot _ _ _ _
  · exact (vol6_rot _ _ _ _).trans (vol6_rot _ _ _ _)

/-- A combination of three points. -/
def comb3 (r s t : K) (a b c : V3 K) : V3 K := ⟨r * a.x + s * b.x + t * c.x, r * a.y + s * b.y + t * c.y, r * a.z + s * b.z + t * c.z⟩

theorem vol6_comb {r s t : K} (h : r + s + t = 1) (a b c x y z : V3 K) : vol6 a b c (comb3 r s t x y z) = r * vol6 a b c x + s * vol6 a b c y + t * vol6 a b c z := by
  obtain rfl : r = 1 - s - t := by linear_combination h
  unfold vol6 comb3; ring

/-- Three planes through one line. -/
theorem pencil (u v w1 w2 A x : V3 K) :
    vol6 u v A x * -vol6 u v w1 w2 = vol6 u v w1 A * vol6 v u w2 x - vol6 v u w2 A * vol6 u v w1 x := by
  unfold vol6; ring

/-- The boundary of a tetrahedron. -/
theorem boundary (a b c A q : V3 K) : vol6 a b c q - vol6 a b c A = vol6 a b A q + vol6 b c A q + vol6 c a A q := by
  unfold vol6; ring
end

section
variable {K : Type} [Field K] [LinearOrder K] [IsStrictOrderedRing K]

/-- The closed triangle. -/
def InTri (a b c x : V3 K) : Prop := ∃ r s t, 0 ≤ r ∧ 0 ≤ s ∧ 0 ≤ t ∧ r + s + t = 1 ∧ x = comb3 r s t a b c

omit [IsStrictOrderedRing K] in
theorem InTri.rot {a b c x : V3 K} (h : InTri a b c x) : InTri b c a x := by
  obtain ⟨r, s, t, hr, hs, ht, h1, rfl⟩ := h
  exact ⟨s, t, r, hs, ht, hr, by rw [← h1]; ring, by unfold comb3; ext <;> simp only <;> ring⟩

/-- The triangle of a face. -/
def InFace (p : Nat → V3 K) (f : Face) (x : V3 K) : Prop := InTri (p f.1) (p f.2.1) (p f.2.2) x

omit [IsStrictOrderedRing K] in
theorem IsRot.inFace {p : Nat → V3 K} {f g : Face} (h : IsRot f g) {x : V3 K} (hx : InFace p g x) : InFace p f x := by
  obtain ⟨a, b, c⟩ := f
  rcases h with rfl | rfl | rfl
  · exact hx
  · exact InTri.rot (InTri.rot hx)
  · exact InTri.rot hx

/-- A closed surface whose corners are below or on the plane of each face, with a point `o` below all of them, and no corner within another face. -/
structure Good (p : Nat → V3 K) (o : V3 K) (fs : List Face) : Prop where
  nodup : (edgesOf fs).Nodup
  rev : ∀ u v, (u, v) ∈ edgesOf fs → (v, u) ∈ edgesOf fs
  below : ∀ f ∈ fs, ∀ w, Used fs w → height p f (p w) ≤ 0
  inner : ∀ f ∈ fs, height p f o < 0
  apart : ∀ f ∈ fs, ∀ w, Used fs w → InFace p f (p w) → w = f.1 ∨ w = f.2.1 ∨ w = f.2.2

/-- `(u, v)` is an edge between a face that is visible from `A` and one that is not. -/
structure Horizon (p : Nat → V3 K) (fs : List Face) (A : V3 K) (u v : Nat) : Prop where
  seen : ∃ f ∈ fs, ∃ w, IsRot f (u, v, w) ∧ 0 < height p f A
  unseen : ∃ f ∈ fs, ∃ w, IsRot f (v, u, w) ∧ height p f A ≤ 0

variable {p : Nat → V3 K} {o : V3 K} {fs : List Face}

/-- The cone over a horizon edge supports everything below the two faces of the edge. -/
theorem Horizon.cone (hg : Good p o fs) {A : V3 K} {u v : Nat} (h : Horizon p fs A u v) :
    vol6 (p u) (p v) A o < 0 ∧ ∀ x, (∀ f ∈ fs, height p f x ≤ 0) → vol6 (p u) (p v) A x ≤ 0 := by
  obtain ⟨f1, hf1, w1, r1, s1⟩ := h.seen
  obtain ⟨f2, hf2, w2, r2, s2⟩ := h.unseen
  have e1 : ∀ x, vol6 (p u) (p v) (p w1) x = height p f1 x := fun x => r1.height x
  have e2 : ∀ x, vol6 (p v) (p u) (p w2) x = height p f2 x := fun x => r2.height x
  have key := pencil (p u) (p v) (p w1) (p w2) A
  simp only [e1, e2] at key
  have hC : 0 ≤ -height p f1 (p w2) := by
    have := hg.below f1 hf1 w2 ⟨f2, hf2, (r2.used w2).2 (Or.inr (Or.inr rfl))⟩
    linarith
  have ho : height p f1 A * height p f2 o - height p f2 A * height p f1 o < 0 := by
    have h1 := mul_pos_of_neg_of_neg (neg_neg_of_pos s1) (hg.inner f2 hf2)
    have h2 := mul_nonneg_of_nonpos_of_nonpos s2 (hg.inner f1 hf1).le
    linarith
  have hC' : 0 < -height p f1 (p w2) := by
    rcases hC.lt_or_eq with h | h
    · exact h
    · exfalso
      have := key o
      rw [← h, mul_zero] at this
      linarith
  refine ⟨?_, fun x hx => ?_⟩
  · have := key o
    by_contra hn
    have := mul_nonneg (not_lt.1 hn) hC'.le
    linarith
  · have h1 := mul_nonneg s1.le (neg_nonneg.2 (hx f2 hf2))
    have h2 := mul_nonneg_of_nonpos_of_nonpos s2 (hx f1 hf1)
    by_contra hn
    have := mul_pos (not_le.1 hn) hC'
    have := key x
    linarith

/-- Vectors in one plane with functionals that are zero on one, not positive on the second and positive on the third. -/
theorem same_ray {a a' d y : V3 K} {H H' : V3 K} (hc : dot3 (cross3 a d) a' = 0) (hPR : dot3 (cross3 a' d) y * dot3 (cross3 a d) y > 0)
    (h1 : dot3 H a = 0) (h2 : 0 < dot3 H d) (h3 : dot3 H a' ≤ 0) (h1' : dot3 H' a' = 0) (h2' : 0 < dot3 H' d) (h3' : dot3 H' a ≤ 0) :
    ∃ l, 0 < l ∧ a' = V3.scale l a := by
  set P := -dot3 (cross3 a' d) y with hP
  set Q := dot3 (cross3 a' a) y with hQ
  set R := dot3 (cross3 a d) y with hR
  have rel : P * a.x + Q * d.x + R * a'.x = 0 ∧ P * a.y + Q * d.y + R * a'.y = 0 ∧ P * a.z + Q * d.z + R * a'.z = 0 := by
    have : ∀ t : K, dot3 (cross3 a d) a' * t = 0 := fun t => by rw [hc, zero_mul]
    refine ⟨?_, ?_, ?_⟩
    · have := this y.x
      rw [← this, hP, hQ, hR]; simp only [dot3, cross3]; ring
    · have := this y.y
      rw [← this, hP, hQ, hR]; simp only [dot3, cross3]; ring
    · have := this y.z
      rw [← this, hP, hQ, hR]; simp only [dot3, cross3]; ring
  obtain ⟨ex, ey, ez⟩ := rel
  have hH : ∀ G : V3 K, P * dot3 G a + Q * dot3 G d + R * dot3 G a' = 0 := by
    intro G
    simp only [dot3]
    linear_combination G.x * ex + G.y * ey + G.z * ez
  have i1 := hH H
  have i2 := hH H'
  rw [h1] at i1
  rw [h1'] at i2
  have hPR' : P * R < 0 := by rw [hP]; linarith
  have hR0 : R ≠ 0 := by rintro h; rw [h] at hPR'; simp at hPR'
  have hQ0 : Q = 0 := by
    -- Q H(d) = -R H(a'), Q H'(d) = -P H'(a)
    have a1 : Q * dot3 H d = -R * dot3 H a' := by linarith
    have a2 : Q * dot3 H' d = -P * dot3 H' a := by linarith
    rcases lt_trichotomy R 0 with h | h | h
    · have hP0 : 0 < P := by
        by_contra hn
        have := mul_nonneg_of_nonpos_of_nonpos (not_lt.1 hn) h.le
        linarith
      have b1 : Q * dot3 H d ≤ 0 := by
        rw [a1]
        have := mul_nonneg_of_nonpos_of_nonpos h.le h3
        linarith
      have b2 : 0 ≤ Q * dot3 H' d := by
        rw [a2]
        have := mul_nonneg hP0.le (neg_nonneg.2 h3')
        linarith
      apply le_antisymm
      · by_contra hn
        have := mul_pos (not_le.1 hn) h2
        linarith
      · by_contra hn
        have := mul_neg_of_neg_of_pos (not_le.1 hn) h2'
        linarith
    · exact absurd h hR0
    · have hP0 : P < 0 := by
        by_contra hn
        have := mul_nonneg (not_lt.1 hn) h.le
        linarith
      have b1 : 0 ≤ Q * dot3 H d := by
        rw [a1]
        have := mul_nonneg h.le (neg_nonneg.2 h3)
        linarith
      have b2 : Q * dot3 H' d ≤ 0 := by
        rw [a2]
        have := mul_nonneg_of_nonpos_of_nonpos hP0.le h3'
        linarith
      apply le_antisymm
      · by_contra hn
        have := mul_pos (not_le.1 hn) h2'
        linarith
      · by_contra hn
        have := mul_neg_of_neg_of_pos (not_le.1 hn) h2
        linarith
  rw [hQ0] at ex ey ez
  refine ⟨-P / R, ?_, ?_⟩
  · have : -P / R = -(P * R) / (R * R) := by field_simp
    rw [this]
    exact div_pos (by linarith) (mul_self_pos.2 hR0)
  · ext <;> simp only [V3.scale] <;> field_simp <;> linarith

omit [IsStrictOrderedRing K] in
/-- `height` as a linear function of the difference to a corner. -/
theorem vol6_dot (a b c x : V3 K) : vol6 a b c x = dot3 (cross3 (b - a) (c - a)) (x - a) := by
  simp only [vol6, dot3, cross3, V3.sub_x, V3.sub_y, V3.sub_z]; ring

omit [IsStrictOrderedRing K] in
theorem vol6_dot2 (a b c x : V3 K) : vol6 a b c x = dot3 (cross3 (b - a) (c - a)) (x - b) := by
  simp only [vol6, dot3, cross3, V3.sub_x, V3.sub_y, V3.sub_z]; ring

/-- Two corners on the same ray from a third, all three joined by sides: they are the same. -/
theorem ray_eq (hg : Good p o fs) {f f' : Face} (hf : f ∈ fs) (hf' : f' ∈ fs) {v u u' : Nat} {l : K} (hl : 0 < l) (e : p u' - p v = V3.scale l (p u - p v))
    (hfu : (v = f.1 ∨ v = f.2.1 ∨ v = f.2.2) ∧ (u = f.1 ∨ u = f.2.1 ∨ u = f.2.2)) (hfu' : (v = f'.1 ∨ v = f'.2.1 ∨ v = f'.2.2) ∧ (u' = f'.1 ∨ u' = f'.2.1 ∨ u' = f'.2.2))
    (huv : u ≠ v) (huv' : u' ≠ v) : u = u' := by
  have aux : ∀ {f : Face} {v u u' : Nat} {l : K}, f ∈ fs → 0 < l → l ≤ 1 → p u' - p v = V3.scale l (p u - p v) →
      (v = f.1 ∨ v = f.2.1 ∨ v = f.2.2) ∧ (u = f.1 ∨ u = f.2.1 ∨ u = f.2.2) → u ≠ v → u' ≠ v → Used fs u' → u = u' := by
    clear hf hf' hl e hfu hfu' huv huv'
    intro f v u u' l hf hl hl1 e hfu huv huv' hused
    have ex := congrArg V3.x e
    have ey := congrArg V3.y e
    have ez := congrArg V3.z e
    simp only [V3.sub_x, V3.sub_y, V3.sub_z, V3.scale] at ex ey ez
    obtain ⟨a, b, c⟩ := f
    have hin : InFace p (a, b, c) (p u') := by
      unfold InFace InTri
      simp only
      obtain ⟨hv, hu⟩ := hfu
      simp only at hv hu
      rcases hv with rfl | rfl | rfl <;> rcases hu with rfl | rfl | rfl
      · exact absurd rfl huv
      · exact ⟨1 - l, l, 0, by linarith, hl.le, le_refl _, by ring, by unfold comb3; ext <;> simp only <;> linarith⟩
      · exact ⟨1 - l, 0, l, by linarith, le_refl _, hl.le, by ring, by unfold comb3; ext <;> simp only <;> linarith⟩
      · exact ⟨l, 1 - l, 0, hl.le, by linarith, le_refl _, by ring, by unfold comb3; ext <;> simp only <;> linarith⟩
      · exact absurd rfl huv
      · exact ⟨0, 1 - l, l, le_refl _, by linarith, hl.le, by ring, by unfold comb3; ext <;> simp only <;> linarith⟩
      · exact ⟨l, 0, 1 - l, hl.le, le_refl _, by linarith, by ring, by unfold comb3; ext <;> simp only <;> linarith⟩
      · exact ⟨0, l, 1 - l, le_refl _, hl.le, by linarith, by ring, by unfold comb3; ext <;> simp only <;> linarith⟩
      · exact absurd rfl huv
    have hc := hg.apart _ hf u' hused hin
    by_contra hne
    have h0 : height p (a, b, c) o = 0 := by
      have hx : (p u').x = (p v).x + l * ((p u).x - (p v).x) := by linarith
      have hy : (p u').y = (p v).y + l * ((p u).y - (p v).y) := by linarith
      have hz : (p u').z = (p v).z + l * ((p u).z - (p v).z) := by linarith
      unfold height vol6
      obtain ⟨hv, hu⟩ := hfu
      simp only at hv hu hc ⊢
      rcases hv with rfl | rfl | rfl <;> rcases hu with rfl | rfl | rfl <;> rcases hc with rfl | rfl | rfl <;>
        first | exact absurd rfl huv | exact absurd rfl huv' | exact absurd rfl hne | (rw [hx, hy, hz]; ring)
    have := hg.inner _ hf
    linarith
  rcases le_total l 1 with h | h
  · exact aux hf hl h e hfu huv huv' ⟨f', hf', hfu'.2⟩
  · refine (aux hf' (l := 1 / l) (by positivity) (by rw [div_le_one hl]; exact h) ?_ hfu' huv' huv ⟨f, hf, hfu.2⟩).symm
    rw [e]
    ext <;> simp only [V3.scale] <;> field_simp

/-- A face has different corners. -/
theorem Good.corners (hg : Good p o fs) {f : Face} (hf : f ∈ fs) {a b c : Nat} (hr : IsRot f (a, b, c)) : a ≠ b ∧ b ≠ c ∧ a ≠ c := by
  have h : vol6 (p a) (p b) (p c) o < 0 := by
    have := hr.height (p := p) o
    rw [show height p (a, b, c) o = vol6 (p a) (p b) (p c) o from rfl] at this
    rw [this]; exact hg.inner f hf
  refine ⟨?_, ?_, ?_⟩ <;> rintro rfl
  · rw [vol6_deg1] at h; exact absurd h (lt_irrefl _)
  · rw [vol6_deg2] at h; exact absurd h (lt_irrefl _)
  · rw [vol6_deg3] at h; exact absurd h (lt_irrefl _)

/-- A corner has only one horizon edge into it ... -/
theorem Horizon.unique_in (hg : Good p o fs) {A : V3 K} {u u' v : Nat} (h : Horizon p fs A u v) (h' : Horizon p fs A u' v) : u = u' := by
  obtain ⟨c1, c2⟩ := h.cone hg
  obtain ⟨c1', c2'⟩ := h'.cone hg
  obtain ⟨f, hf, w, hr, hs⟩ := h.seen
  obtain ⟨f', hf', w', hr', hs'⟩ := h'.seen
  have mu : Used fs u := ⟨f, hf, (hr.used u).2 (Or.inl rfl)⟩
  have mu' : Used fs u' := ⟨f', hf', (hr'.used u').2 (Or.inl rfl)⟩
  have b1 := c2 (p u') fun g hgm => hg.below g hgm u' mu'
  have b2 := c2' (p u) fun g hgm => hg.below g hgm u mu
  have cop : vol6 (p u) (p v) A (p u') = 0 := by
    have : vol6 (p u') (p v) A (p u) = -vol6 (p u) (p v) A (p u') := by unfold vol6; ring
    linarith
  have e1 : ∀ x, height p f x = vol6 (p u) (p v) (p w) x := fun x => (hr.height x).symm
  have e1' : ∀ x, height p f' x = vol6 (p u') (p v) (p w') x := fun x => (hr'.height x).symm
  have q1 := hg.below f hf u' mu'
  have q2 := hg.below f' hf' u mu
  rw [e1] at hs q1
  rw [e1'] at hs' q2
  obtain ⟨l, hl, hll⟩ := same_ray (a := p u - p v) (a' := p u' - p v) (d := A - p v) (y := o - p v) (H := cross3 (p v - p u) (p w - p u)) (H' := cross3 (p v - p u') (p w' - p u'))
    (by rw [← neg_eq_zero, ← cop]; simp only [vol6, dot3, cross3, V3.sub_x, V3.sub_y, V3.sub_z]; ring)
    (by
      have i1 : dot3 (cross3 (p u' - p v) (A - p v)) (o - p v) = -vol6 (p u') (p v) A o := by simp only [vol6, dot3, cross3, V3.sub_x, V3.sub_y, V3.sub_z]; ring
      have i2 : dot3 (cross3 (p u - p v) (A - p v)) (o - p v) = -vol6 (p u) (p v) A o := by simp only [vol6, dot3, cross3, V3.sub_x, V3.sub_y, V3.sub_z]; ring
      rw [i1, i2]
      exact mul_pos (by linarith) (by linarith))
    (by rw [← vol6_dot2, vol6_self1]) (by rw [← vol6_dot2]; exact hs) (by rw [← vol6_dot2]; exact q1)
    (by rw [← vol6_dot2, vol6_self1]) (by rw [← vol6_dot2]; exact hs') (by rw [← vol6_dot2]; exact q2)
  exact ray_eq hg hf hf' hl hll ⟨(hr.used v).2 (Or.inr (Or.inl rfl)), (hr.used u).2 (Or.inl rfl)⟩ ⟨(hr'.used v).2 (Or.inr (Or.inl rfl)), (hr'.used u').2 (Or.inl rfl)⟩
    (hg.corners hf hr).1 (hg.corners hf' hr').1

/-- ... and only one out of it. -/
theorem Horizon.unique_out (hg : Good p o fs) {A : V3 K} {u u' v : Nat} (h : Horizon p fs A v u) (h' : Horizon p fs A v u') : u = u' := by
  obtain ⟨c1, c2⟩ := h.cone hg
  obtain ⟨c1', c2'⟩ := h'.cone hg
  obtain ⟨f, hf, w, hr, hs⟩ := h.seen
  obtain ⟨f', hf', w', hr', hs'⟩ := h'.seen
  have mu : Used fs u := ⟨f, hf, (hr.used u).2 (Or.inr (Or.inl rfl))⟩
  have mu' : Used fs u' := ⟨f', hf', (hr'.used u').2 (Or.inr (Or.inl rfl))⟩
  have b1 := c2 (p u') fun g hgm => hg.below g hgm u' mu'
  have b2 := c2' (p u) fun g hgm => hg.below g hgm u mu
  have cop : vol6 (p v) (p u) A (p u') = 0 := by
    have : vol6 (p v) (p u') A (p u) = -vol6 (p v) (p u) A (p u') := by unfold vol6; ring
    linarith
  have e1 : ∀ x, height p f x = vol6 (p v) (p u) (p w) x := fun x => (hr.height x).symm
  have e1' : ∀ x, height p f' x = vol6 (p v) (p u') (p w') x := fun x => (hr'.height x).symm
  have q1 := hg.below f hf u' mu'
  have q2 := hg.below f' hf' u mu
  rw [e1] at hs q1
  rw [e1'] at hs' q2
  obtain ⟨l, hl, hll⟩ := same_ray (a := p u - p v) (a' := p u' - p v) (d := A - p v) (y := o - p v) (H := cross3 (p u - p v) (p w - p v)) (H' := cross3 (p u' - p v) (p w' - p v))
    (by rw [← cop]; simp only [vol6, dot3, cross3, V3.sub_x, V3.sub_y, V3.sub_z]; ring)
    (by
      rw [← vol6_dot, ← vol6_dot]
      exact mul_pos_of_neg_of_neg c1' c1)
    (by rw [← vol6_dot, vol6_self2]) (by rw [← vol6_dot]; exact hs) (by rw [← vol6_dot]; exact q1)
    (by rw [← vol6_dot, vol6_self2]) (by rw [← vol6_dot]; exact hs') (by rw [← vol6_dot]; exact q2)
  exact ray_eq hg hf hf' hl hll ⟨(hr.used v).2 (Or.inl rfl), (hr.used u).2 (Or.inr (Or.inl rfl))⟩ ⟨(hr'.used v).2 (Or.inl rfl), (hr'.used u').2 (Or.inr (Or.inl rfl))⟩
    (hg.corners hf hr).1.symm (hg.corners hf' hr').1.symm

/-! ### One step of the construction -/

/-- The faces visible from point `a`, and the others. -/
def visible (p : Nat → V3 K) (fs : List Face) (a : Nat) : List Face := fs.filter fun f => 0 < height p f (p a)
def hidden (p : Nat → V3 K) (fs : List Face) (a : Nat) : List Face := fs.filter fun f => ¬ 0 < height p f (p a)

/-- `hs` lists the directed sides of visible faces whose reverse is not the side of a visible face. -/
structure IsHorizon (p : Nat → V3 K) (fs : List Face) (a : Nat) (hs : List (Nat × Nat)) : Prop where
  nodup : hs.Nodup
  mem : ∀ u v, (u, v) ∈ hs ↔ (u, v) ∈ edgesOf (visible p fs a) ∧ (v, u) ∉ edgesOf (visible p fs a)

/-- The faces after the step. -/
def stepFaces (p : Nat → V3 K) (fs : List Face) (a : Nat) (hs : List (Nat × Nat)) : List Face := hidden p fs a ++ hs.map fun e => (e.1, e.2, a)

omit [IsStrictOrderedRing K] in
theorem mem_visible {a : Nat} {f : Face} : f ∈ visible p fs a ↔ f ∈ fs ∧ 0 < height p f (p a) := by simp [visible]
omit [IsStrictOrderedRing K] in
theorem mem_hidden {a : Nat} {f : Face} : f ∈ hidden p fs a ↔ f ∈ fs ∧ height p f (p a) ≤ 0 := by simp [hidden]

omit [IsStrictOrderedRing K] in
theorem edges_split (fs : List Face) (a : Nat) : (edgesOf fs).Perm (edgesOf (visible p fs a) ++ edgesOf (hidden p fs a)) := by
  unfold edgesOf
  rw [← List.flatMap_append]
  refine List.Perm.flatMap_right _ ?_
  unfold visible hidden
  have := List.filter_append_perm (fun f : Face => decide (0 < height p f (p a))) fs
  refine this.symm.trans ?_
  rw [List.filter_congr (l := fs) (p := fun f => !decide (0 < height p f (p a))) (q := fun f => decide (¬ 0 < height p f (p a))) fun f _ => by rw [decide_not]]

omit [IsStrictOrderedRing K] in
theorem Good.split_nodup (hg : Good p o fs) (a : Nat) : (edgesOf (visible p fs a)).Nodup ∧ (edgesOf (hidden p fs a)).Nodup ∧ ∀ e ∈ edgesOf (visible p fs a), e ∉ edgesOf (hidden p fs a) := by
  have h := (edges_split (p := p) fs a).nodup_iff.1 hg.nodup
  obtain ⟨h1, h2, h3⟩ := List.nodup_append'.1 h
  exact ⟨h1, h2, fun e he he' => h3 he he'⟩

omit [IsStrictOrderedRing K] in
theorem split_mem {a : Nat} {e : Nat × Nat} : e ∈ edgesOf fs ↔ e ∈ edgesOf (visible p fs a) ∨ e ∈ edgesOf (hidden p fs a) := by
  rw [(edges_split (p := p) fs a).mem_iff, List.mem_append]

omit [IsStrictOrderedRing K] in
theorem IsHorizon.horizon (hg : Good p o fs) {a : Nat} {hs : List (Nat × Nat)} (hh : IsHorizon p fs a hs) {u v : Nat} (he : (u, v) ∈ hs) : Horizon p fs (p a) u v := by
  obtain ⟨h1, h2⟩ := (hh.mem u v).1 he
  obtain ⟨f, hf, w, hr⟩ := mem_edgesOf.1 h1
  obtain ⟨hf, hv⟩ := mem_visible.1 hf
  have h3 : (v, u) ∈ edgesOf (hidden p fs a) := by
    have := hg.rev u v (split_mem.2 (Or.inl h1))
    rcases (split_mem (p := p) (a := a)).1 this with h | h
    · exact absurd h h2
    · exact h
  obtain ⟨g, hgm, w', hr'⟩ := mem_edgesOf.1 h3
  obtain ⟨hgm, hgh⟩ := mem_hidden.1 hgm
  exact ⟨⟨f, hf, w, hr, hv⟩, ⟨g, hgm, w', hr', hgh⟩⟩

theorem in_out (fs : List Face) (v : Nat) : ((edgesOf fs).filter fun e => e.2 = v).length = ((edgesOf fs).filter fun e => e.1 = v).length := by
  induction fs with
  | nil => rfl
  | cons f fs ih =>
    unfold edgesOf at ih ⊢
    rw [List.flatMap_cons, List.filter_append, List.filter_append, List.length_append, List.length_append, ih]
    congr 1
    obtain ⟨a, b, c⟩ := f
    simp only [fedges, List.filter_cons, List.filter_nil, decide_eq_true_eq]
    split_ifs <;> simp

/-- As many corners have a side to `v` but none from it, as the other way round. -/
theorem in_out_sets {E : List (Nat × Nat)} (hE : E.Nodup) {v : Nat} (h : (E.filter fun e => e.2 = v).length = (E.filter fun e => e.1 = v).length) :
    (∃ u, (u, v) ∈ E ∧ (v, u) ∉ E) ↔ ∃ u, (v, u) ∈ E ∧ (u, v) ∉ E := by
  classical
  set I := ((E.filter fun e => e.2 = v).map Prod.fst).toFinset with hI
  set O := ((E.filter fun e => e.1 = v).map Prod.snd).toFinset with hO
  have mI : ∀ u, u ∈ I ↔ (u, v) ∈ E := by
    intro u
    rw [hI, List.mem_toFinset, List.mem_map]
    constructor
    · rintro ⟨⟨x, y⟩, hx, rfl⟩
      rw [List.mem_filter, decide_eq_true_eq] at hx
      obtain ⟨hx, rfl⟩ := hx
      exact hx
    · intro hu
      exact ⟨(u, v), List.mem_filter.2 ⟨hu, by simp⟩, rfl⟩
  have mO : ∀ u, u ∈ O ↔ (v, u) ∈ E := by
    intro u
    rw [hO, List.mem_toFinset, List.mem_map]
    constructor
    · rintro ⟨⟨x, y⟩, hx, rfl⟩
      rw [List.mem_filter, decide_eq_true_eq] at hx
      obtain ⟨hx, rfl⟩ := hx
      exact hx
    · intro hu
      exact ⟨(v, u), List.mem_filter.2 ⟨hu, by simp⟩, rfl⟩
  have cI : I.card = (E.filter fun e => e.2 = v).length := by
    rw [hI, List.toFinset_card_of_nodup, List.length_map]
    refine (hE.filter _).map_on ?_
    rintro ⟨x, y⟩ hx ⟨x', y'⟩ hx' e
    rw [List.mem_filter, decide_eq_true_eq] at hx hx'
    simp only at e hx hx'
    rw [e, hx.2, hx'.2]
  have cO : O.card = (E.filter fun e => e.1 = v).length := by
    rw [hO, List.toFinset_card_of_nodup, List.length_map]
    refine (hE.filter _).map_on ?_
    rintro ⟨x, y⟩ hx ⟨x', y'⟩ hx' e
    rw [List.mem_filter, decide_eq_true_eq] at hx hx'
    simp only at e hx hx'
    rw [e, hx.2, hx'.2]
  have hc : (I \ O).card = (O \ I).card := Finset.card_sdiff_comm (by rw [cI, cO, h])
  have e1 : (∃ u, (u, v) ∈ E ∧ (v, u) ∉ E) ↔ (I \ O).Nonempty := by
    constructor
    · rintro ⟨u, h1, h2⟩; exact ⟨u, Finset.mem_sdiff.2 ⟨(mI u).2 h1, fun h => h2 ((mO u).1 h)⟩⟩
    · rintro ⟨u, h1⟩
      obtain ⟨h1, h2⟩ := Finset.mem_sdiff.1 h1
      exact ⟨u, (mI u).1 h1, fun h => h2 ((mO u).2 h)⟩
  have e2 : (∃ u, (v, u) ∈ E ∧ (u, v) ∉ E) ↔ (O \ I).Nonempty := by
    constructor
    · rintro ⟨u, h1, h2⟩; exact ⟨u, Finset.mem_sdiff.2 ⟨(mO u).2 h1, fun h => h2 ((mI u).1 h)⟩⟩
    · rintro ⟨u, h1⟩
      obtain ⟨h1, h2⟩ := Finset.mem_sdiff.1 h1
      exact ⟨u, (mO u).1 h1, fun h => h2 ((mI u).2 h)⟩
  rw [e1, e2, ← Finset.card_pos, ← Finset.card_pos, hc]

omit [IsStrictOrderedRing K] in
/-- The horizon goes on at each of its corners. -/
theorem IsHorizon.next (hg : Good p o fs) {a : Nat} {hs : List (Nat × Nat)} (hh : IsHorizon p fs a hs) (v : Nat) : (∃ u, (u, v) ∈ hs) ↔ ∃ w, (v, w) ∈ hs := by
  have := in_out_sets (hg.split_nodup a).1 (in_out (visible p fs a) v)
  constructor
  · rintro ⟨u, hu⟩
    obtain ⟨w, hw⟩ := this.1 ⟨u, (hh.mem u v).1 hu⟩
    exact ⟨w, (hh.mem v w).2 hw⟩
  · rintro ⟨u, hu⟩
    obtain ⟨w, hw⟩ := this.2 ⟨u, (hh.mem v u).1 hu⟩
    exact ⟨w, (hh.mem w v).2 hw⟩

omit [LinearOrder K] [IsStrictOrderedRing K] in
theorem sum_boundary (p : Nat → V3 K) (fs : List Face) (A q : V3 K) :
    (fs.map fun f => height p f q - height p f A).sum = ((edgesOf fs).map fun e => vol6 (p e.1) (p e.2) A q).sum := by
  induction fs with
  | nil => rfl
  | cons f fs ih =>
    unfold edgesOf at ih ⊢
    rw [List.map_cons, List.sum_cons, ih, List.flatMap_cons, List.map_append, List.sum_append]
    congr 1
    simp only [fedges, List.map_cons, List.map_nil, List.sum_cons, List.sum_nil, add_zero]
    rw [height, height, boundary]; ring

/-- The sum over the visible faces is one over the horizon. -/
theorem IsHorizon.sum (hg : Good p o fs) {a : Nat} {hs : List (Nat × Nat)} (hh : IsHorizon p fs a hs) (q : V3 K) :
    ((visible p fs a).map fun f => height p f q - height p f (p a)).sum = (hs.map fun e => vol6 (p e.1) (p e.2) (p a) q).sum := by
  classical
  rw [sum_boundary]
  set E := edgesOf (visible p fs a) with hE
  have hEn : E.Nodup := (hg.split_nodup a).1
  set D : Nat × Nat → K := fun e => vol6 (p e.1) (p e.2) (p a) q with hD
  rw [← List.sum_toFinset D hEn, ← List.sum_toFinset D hh.nodup, ← Finset.sum_filter_add_sum_filter_not E.toFinset (fun e => e.swap ∈ E)]
  have h0 : ∑ e ∈ E.toFinset with e.swap ∈ E, D e = 0 := by
    refine Finset.sum_involution (fun e _ => e.swap) ?_ ?_ ?_ ?_
    · intro e _
      rw [hD]
      simp only [Prod.fst_swap, Prod.snd_swap]
      rw [vol6_swap]; ring
    · intro e he hne h
      apply hne
      obtain ⟨x, y⟩ := e
      simp only [Prod.swap_prod_mk, Prod.mk.injEq] at h
      rw [hD]
      simp only [h.1]
      exact vol6_deg1 _ _ _
    · intro e he
      rw [Finset.mem_filter, List.mem_toFinset] at he ⊢
      exact ⟨he.2, by rw [Prod.swap_swap]; exact he.1⟩
    · intro e _; exact Prod.swap_swap e
  rw [h0, zero_add]
  refine Finset.sum_congr ?_ fun _ _ => rfl
  ext ⟨u, v⟩
  rw [Finset.mem_filter, List.mem_toFinset, List.mem_toFinset, hh.mem]
  rfl

theorem sum_neg_of {l : List Face} {g : Face → K} (h0 : l ≠ []) (h : ∀ f ∈ l, g f < 0) : (l.map g).sum < 0 := by
  induction l with
  | nil => exact absurd rfl h0
  | cons f l ih =>
    rw [List.map_cons, List.sum_cons]
    have h1 := h f (by simp)
    rcases eq_or_ne l [] with rfl | hl
    · simpa using h1
    · have := ih hl fun f hf => h f (by simp [hf])
      linarith

/-- The horizon sums of points of the old surface are negative. -/
theorem IsHorizon.sum_neg (hg : Good p o fs) {a : Nat} (hv : ∃ f ∈ fs, 0 < height p f (p a)) {hs : List (Nat × Nat)} (hh : IsHorizon p fs a hs) {q : V3 K} (hq : ∀ f ∈ fs, height p f q ≤ 0) :
    (hs.map fun e => vol6 (p e.1) (p e.2) (p a) q).sum < 0 := by
  rw [← hh.sum hg]
  obtain ⟨f, hf, hfa⟩ := hv
  refine sum_neg_of (List.ne_nil_of_mem (mem_visible.2 ⟨hf, hfa⟩)) fun g hgm => ?_
  obtain ⟨h1, h2⟩ := mem_visible.1 hgm
  have := hq g h1
  linarith

omit [IsStrictOrderedRing K] in
/-- Four points in a plane that misses `o`. -/
theorem coplanar4 {a b c o x y z w : V3 K} (ho : vol6 a b c o ≠ 0) (hx : vol6 a b c x = 0) (hy : vol6 a b c y = 0) (hz : vol6 a b c z = 0) (hw : vol6 a b c w = 0) : vol6 x y z w = 0 := by
  have key : vol6 x y z w * vol6 a b c o = vol6 x y z w * vol6 a b c x
      + (vol6 a b c y - vol6 a b c x) * dot3 (cross3 (z - x) (w - x)) (o - x) + (vol6 a b c z - vol6 a b c x) * dot3 (cross3 (w - x) (y - x)) (o - x)
      + (vol6 a b c w - vol6 a b c x) * dot3 (cross3 (y - x) (z - x)) (o - x) := by
    simp only [vol6, dot3, cross3, V3.sub_x, V3.sub_y, V3.sub_z]; ring
  rw [hx, hy, hz, hw] at key
  simp only [mul_zero, sub_self, zero_mul, add_zero] at key
  exact (mul_eq_zero.1 key).resolve_right ho

/-- Some corner of the horizon is strictly below the cone over a horizon edge. -/
theorem IsHorizon.strict (hg : Good p o fs) {a : Nat} (hv : ∃ f ∈ fs, 0 < height p f (p a)) {hs : List (Nat × Nat)} (hh : IsHorizon p fs a hs) {u v : Nat} (he : (u, v) ∈ hs) :
    ∃ w x, (w, x) ∈ hs ∧ vol6 (p u) (p v) (p a) (p w) < 0 := by
  by_contra hn
  obtain ⟨ho, hc⟩ := (hh.horizon hg he).cone hg
  have hused : ∀ w x, (w, x) ∈ hs → ∀ f ∈ fs, height p f (p w) ≤ 0 := by
    intro w x hw f hf
    refine hg.below f hf w (used_iff.2 ⟨x, ?_⟩)
    exact (split_mem (p := p) (a := a)).2 (Or.inl ((hh.mem w x).1 hw).1)
  have h0 : ∀ w x, (w, x) ∈ hs → vol6 (p u) (p v) (p a) (p w) = 0 := by
    intro w x hw
    refine le_antisymm (hc _ (hused w x hw)) ?_
    by_contra h
    exact hn ⟨w, x, hw, not_le.1 h⟩
  have h1 := hh.sum_neg hg hv (q := p u) (hused u v he)
  have h2 : (hs.map fun e => vol6 (p e.1) (p e.2) (p a) (p u)).sum = 0 := by
    apply List.sum_eq_zero
    intro x hx
    obtain ⟨⟨w, y⟩, hw, rfl⟩ := List.mem_map.1 hx
    obtain ⟨z, hz⟩ := (hh.next hg y).1 ⟨w, hw⟩
    exact coplanar4 ho.ne (h0 w y hw) (h0 y z hz) (vol6_self3 _ _ _) (h0 u v he)
  linarith

/-- There is a horizon. -/
theorem IsHorizon.ne_nil (hg : Good p o fs) {a : Nat} (hv : ∃ f ∈ fs, 0 < height p f (p a)) {hs : List (Nat × Nat)} (hh : IsHorizon p fs a hs) : hs ≠ [] := by
  rintro rfl
  have := hh.sum_neg hg hv (q := o) fun f hf => (hg.inner f hf).le
  simp at this

omit [IsStrictOrderedRing K] in
/-- A visible point is not a corner. -/
theorem Good.not_used (hg : Good p o fs) {a : Nat} (hv : ∃ f ∈ fs, 0 < height p f (p a)) : ¬ Used fs a := by
  obtain ⟨f, hf, h⟩ := hv
  exact fun hu => absurd (hg.below f hf a hu) (not_le.2 h)

omit [LinearOrder K] [IsStrictOrderedRing K] in
theorem mem_cone {hs : List (Nat × Nat)} {a x y : Nat} : (x, y) ∈ edgesOf (hs.map fun e => (e.1, e.2, a)) ↔ (x, y) ∈ hs ∨ (y = a ∧ ∃ u, (u, x) ∈ hs) ∨ (x = a ∧ ∃ v, (y, v) ∈ hs) := by
  unfold edgesOf
  rw [List.mem_flatMap]
  constructor
  · rintro ⟨f, hf, h⟩
    obtain ⟨⟨u, v⟩, he, rfl⟩ := List.mem_map.1 hf
    simp only [fedges, List.mem_cons, List.not_mem_nil, or_false, Prod.mk.injEq] at h
    rcases h with ⟨rfl, rfl⟩ | ⟨rfl, rfl⟩ | ⟨rfl, rfl⟩
    · exact Or.inl he
    · exact Or.inr (Or.inl ⟨rfl, u, he⟩)
    · exact Or.inr (Or.inr ⟨rfl, v, he⟩)
  · rintro (h | ⟨rfl, u, h⟩ | ⟨rfl, v, h⟩)
    · exact ⟨_, List.mem_map.2 ⟨_, h, rfl⟩, by simp [fedges]⟩
    · exact ⟨_, List.mem_map.2 ⟨_, h, rfl⟩, by simp [fedges]⟩
    · exact ⟨_, List.mem_map.2 ⟨_, h, rfl⟩, by simp [fedges]⟩

theorem Good.step (hg : Good p o fs) {a : Nat} (hv : ∃ f ∈ fs, 0 < height p f (p a)) {hs : List (Nat × Nat)} (hh : IsHorizon p fs a hs) :
    Good p o (stepFaces p fs a hs) ∧ ∀ x, (∀ f ∈ fs, height p f x ≤ 0) → ∀ f ∈ stepFaces p fs a hs, height p f x ≤ 0 := by
  have ha := hg.not_used hv
  obtain ⟨n1, n2, n3⟩ := hg.split_nodup a
  have hsub : ∀ {u v}, (u, v) ∈ hs → (u, v) ∈ edgesOf fs := fun {u v} h => (split_mem (p := p) (a := a)).2 (Or.inl ((hh.mem u v).1 h).1)
  have hne : ∀ {u v}, (u, v) ∈ edgesOf fs → u ≠ a ∧ v ≠ a := by
    intro u v h
    exact ⟨fun e => ha (e ▸ used_iff.2 ⟨v, h⟩), fun e => ha (e ▸ used_iff'.2 ⟨u, h⟩)⟩
  have huv : ∀ {u v}, (u, v) ∈ edgesOf fs → u ≠ v := by
    intro u v h
    obtain ⟨f, hf, w, hr⟩ := mem_edgesOf.1 h
    exact (hg.corners hf hr).1
  have hedges : edgesOf (stepFaces p fs a hs) = edgesOf (hidden p fs a) ++ edgesOf (hs.map fun e => (e.1, e.2, a)) := by
    unfold stepFaces edgesOf; rw [List.flatMap_append]
  have hhid : ∀ {e}, e ∈ edgesOf (hidden p fs a) → e ∈ edgesOf fs := fun {e} h => (split_mem (p := p) (a := a)).2 (Or.inr h)
  have hregion : ∀ x, (∀ f ∈ fs, height p f x ≤ 0) → ∀ f ∈ stepFaces p fs a hs, height p f x ≤ 0 := by
    intro x hx f hf
    rcases List.mem_append.1 hf with h | h
    · exact hx f (mem_hidden.1 h).1
    · obtain ⟨⟨u, v⟩, he, rfl⟩ := List.mem_map.1 h
      exact ((hh.horizon hg he).cone hg).2 x hx
  have hused : ∀ w, Used (stepFaces p fs a hs) w → w = a ∨ Used fs w := by
    intro w hw
    obtain ⟨v, hv'⟩ := used_iff.1 hw
    rw [hedges, List.mem_append, mem_cone] at hv'
    rcases hv' with h | h | ⟨_, u, h⟩ | ⟨h, _⟩
    · exact Or.inr (used_iff.2 ⟨v, hhid h⟩)
    · exact Or.inr (used_iff.2 ⟨v, hsub h⟩)
    · exact Or.inr (used_iff'.2 ⟨u, hsub h⟩)
    · exact Or.inl h
  refine ⟨⟨?_, ?_, ?_, ?_, ?_⟩, hregion⟩
  · rw [hedges]
    refine List.nodup_append'.2 ⟨n2, ?_, ?_⟩
    · unfold edgesOf
      rw [List.flatMap_map, List.nodup_flatMap]
      constructor
      · rintro ⟨u, v⟩ he
        have h1 := hne (hsub he)
        have h2 := huv (hsub he)
        simp only [fedges, List.nodup_cons, List.mem_cons, List.not_mem_nil, or_false, Prod.mk.injEq, not_or, not_and, List.nodup_nil, not_false_eq_true, and_true]
        exact ⟨⟨fun h => absurd h h2, fun h => absurd h h1.1⟩, fun h => absurd h h1.2⟩
      · refine hh.nodup.pairwise_of_forall_ne ?_
        rintro ⟨u, v⟩ he ⟨u', v'⟩ he' hd
        have h1 := hne (hsub he)
        have h1' := hne (hsub he')
        have i1 : v ≠ v' := by
          rintro rfl
          exact hd (by rw [(hh.horizon hg he).unique_in hg (hh.horizon hg he')])
        have i2 : u ≠ u' := by
          rintro rfl
          exact hd (by rw [(hh.horizon hg he).unique_out hg (hh.horizon hg he')])
        simp only [Function.onFun, fedges]
        intro e h2 h3
        simp only [List.mem_cons, List.not_mem_nil, or_false] at h2 h3
        rcases h2 with rfl | rfl | rfl <;> simp only [Prod.mk.injEq] at h3 <;> rcases h3 with h | h | h
        · exact i1 h.2
        · exact h1.2 h.2
        · exact h1.1 h.1
        · exact h1'.2 h.2.symm
        · exact i1 h.1
        · exact h1.2 h.1
        · exact h1'.1 h.1.symm
        · exact h1'.2 h.1.symm
        · exact i2 h.2
    · rintro ⟨x, y⟩ h1 h2
      have h3 := hne (hhid h1)
      rcases mem_cone.1 h2 with h | ⟨h, _⟩ | ⟨h, _⟩
      · exact n3 _ ((hh.mem x y).1 h).1 h1
      · exact h3.2 h
      · exact h3.1 h
  · intro x y h
    rw [hedges, List.mem_append, mem_cone] at h ⊢
    rcases h with h | h | ⟨rfl, u, h⟩ | ⟨rfl, v, h⟩
    · rcases (split_mem (p := p) (a := a)).1 (hg.rev x y (hhid h)) with h' | h'
      · refine Or.inr (Or.inl ((hh.mem y x).2 ⟨h', fun h2 => n3 _ h2 h⟩))
      · exact Or.inl h'
    · obtain ⟨h1, h2⟩ := (hh.mem x y).1 h
      rcases (split_mem (p := p) (a := a)).1 (hg.rev x y (hsub h)) with h' | h'
      · exact absurd h' h2
      · exact Or.inl h'
    · exact Or.inr (Or.inr (Or.inr ⟨rfl, (hh.next hg x).1 ⟨u, h⟩⟩))
    · exact Or.inr (Or.inr (Or.inl ⟨rfl, (hh.next hg y).2 ⟨v, h⟩⟩))
  · intro f hf w hw
    rcases hused w hw with rfl | h
    · rcases List.mem_append.1 hf with h | h
      · exact (mem_hidden.1 h).2
      · obtain ⟨⟨u, v⟩, he, rfl⟩ := List.mem_map.1 h
        exact (vol6_self3 _ _ _).le
    · exact hregion (p w) (fun g hgm => hg.below g hgm w h) f hf
  · intro f hf
    rcases List.mem_append.1 hf with h | h
    · exact hg.inner f (mem_hidden.1 h).1
    · obtain ⟨⟨u, v⟩, he, rfl⟩ := List.mem_map.1 h
      exact ((hh.horizon hg he).cone hg).1
  · intro f hf w hw hin
    rcases List.mem_append.1 hf with h | h
    · rcases hused w hw with rfl | h'
      · exfalso
        obtain ⟨f1, hf1, hf1a⟩ := hv
        obtain ⟨r, s, t, hr, hs', ht, h1, e⟩ := hin
        rw [e] at hf1a
        rw [height, vol6_comb h1] at hf1a
        have hfu : ∀ x, (x = f.1 ∨ x = f.2.1 ∨ x = f.2.2) → height p f1 (p x) ≤ 0 := fun x hx => hg.below f1 hf1 x ⟨f, (mem_hidden.1 h).1, hx⟩
        have k1 := mul_nonneg hr (neg_nonneg.2 (hfu f.1 (by simp)))
        have k2 := mul_nonneg hs' (neg_nonneg.2 (hfu f.2.1 (by simp)))
        have k3 := mul_nonneg ht (neg_nonneg.2 (hfu f.2.2 (by simp)))
        unfold height at k1 k2 k3
        linarith
      · exact hg.apart f (mem_hidden.1 h).1 w h' hin
    · obtain ⟨⟨u, v⟩, he, rfl⟩ := List.mem_map.1 h
      simp only
      rcases hused w hw with rfl | h'
      · simp
      · obtain ⟨f1, hf1, w1, r1, s1⟩ := (hh.horizon hg he).seen
        obtain ⟨r, s, t, hr, hs', ht, h1, e⟩ := hin
        simp only at e
        have hb := hg.below f1 hf1 w h'
        rw [← r1.height, e] at hb
        rw [← r1.height] at s1
        unfold height at hb s1
        simp only at hb s1
        rw [vol6_comb h1, vol6_self1, vol6_self2, mul_zero, mul_zero, zero_add, zero_add] at hb
        have ht0 : t = 0 := by
          rcases ht.lt_or_eq with h | h
          · have := mul_pos h s1; linarith
          · exact h.symm
        have hin1 : InFace p f1 (p w) := by
          refine r1.inFace ⟨r, s, 0, hr, hs', le_refl _, by rw [← h1, ht0], ?_⟩
          rw [e, ht0]; simp only [comb3, zero_mul, add_zero]
        rcases (r1.used w).1 (hg.apart f1 hf1 w h' hin1) with h | h | h
        · exact Or.inl h
        · exact Or.inr (Or.inl h)
        · exfalso
          have h0 : vol6 (p u) (p v) (p w1) o = 0 := by
            rw [← h, e, ht0]
            obtain rfl : r = 1 - s := by rw [← h1, ht0]; ring
            unfold vol6 comb3; ring
          have := hg.inner f1 hf1
          rw [← r1.height] at this
          unfold height at this
          simp only at this
          linarith

/-! ### The points below all faces -/

omit [IsStrictOrderedRing K] in
/-- On a closed surface the sum of the heights does not depend on the point. -/
theorem Good.closed_sum (hg : Good p o fs) (q q' : V3 K) : (fs.map fun f => height p f q - height p f q').sum = 0 := by
  classical
  rw [sum_boundary, ← List.sum_toFinset _ hg.nodup]
  refine Finset.sum_involution (fun e _ => e.swap) ?_ ?_ ?_ ?_
  · intro e _
    simp only [Prod.fst_swap, Prod.snd_swap]
    rw [vol6_swap]; ring
  · intro e he hne h
    apply hne
    obtain ⟨x, y⟩ := e
    simp only [Prod.swap_prod_mk, Prod.mk.injEq] at h
    simp only [h.1]
    exact vol6_deg1 _ _ _
  · rintro ⟨x, y⟩ he
    rw [List.mem_toFinset] at he ⊢
    exact hg.rev x y he
  · intro e _; exact Prod.swap_swap e

/-- The corners are not all in one plane. -/
theorem Good.not_flat (hg : Good p o fs) (h0 : fs ≠ []) {l : V3 K} (hl : l ≠ 0) (M : K) : ∃ w, Used fs w ∧ dot3 l (p w) ≠ M := by
  by_contra hn
  have hM : ∀ w, Used fs w → dot3 l (p w) = M := fun w hw => by_contra fun h => hn ⟨w, hw, h⟩
  obtain ⟨f, hf⟩ := List.exists_mem_of_ne_nil _ h0
  have hzero : ∀ g ∈ fs, height p g (p f.1) = 0 := by
    intro g hgm
    have e0 := hM f.1 ⟨f, hf, Or.inl rfl⟩
    have e1 := hM g.1 ⟨g, hgm, Or.inl rfl⟩
    have e2 := hM g.2.1 ⟨g, hgm, Or.inr (Or.inl rfl)⟩
    have e3 := hM g.2.2 ⟨g, hgm, Or.inr (Or.inr rfl)⟩
    simp only [dot3] at e0 e1 e2 e3
    have kx : height p g (p f.1) * l.x = 0 := by
      unfold height vol6
      linear_combination (-((p g.2.1).y - (p g.1).y) * ((p g.2.2).z - (p g.1).z) + ((p g.2.1).z - (p g.1).z) * ((p g.2.2).y - (p g.1).y)) * (e1 - e0)
        + (((p g.2.2).y - (p g.1).y) * ((p f.1).z - (p g.1).z) - ((p g.2.2).z - (p g.1).z) * ((p f.1).y - (p g.1).y)) * (e2 - e1)
        + (-((p g.2.1).y - (p g.1).y) * ((p f.1).z - (p g.1).z) + ((p g.2.1).z - (p g.1).z) * ((p f.1).y - (p g.1).y)) * (e3 - e1)
    have ky : height p g (p f.1) * l.y = 0 := by
      unfold height vol6
      linear_combination (-((p g.2.1).z - (p g.1).z) * ((p g.2.2).x - (p g.1).x) + ((p g.2.1).x - (p g.1).x) * ((p g.2.2).z - (p g.1).z)) * (e1 - e0)
        + (((p g.2.2).z - (p g.1).z) * ((p f.1).x - (p g.1).x) - ((p g.2.2).x - (p g.1).x) * ((p f.1).z - (p g.1).z)) * (e2 - e1)
        + (-((p g.2.1).z - (p g.1).z) * ((p f.1).x - (p g.1).x) + ((p g.2.1).x - (p g.1).x) * ((p f.1).z - (p g.1).z)) * (e3 - e1)
    have kz : height p g (p f.1) * l.z = 0 := by
      unfold height vol6
      linear_combination (-((p g.2.1).x - (p g.1).x) * ((p g.2.2).y - (p g.1).y) + ((p g.2.1).y - (p g.1).y) * ((p g.2.2).x - (p g.1).x)) * (e1 - e0)
        + (((p g.2.2).x - (p g.1).x) * ((p f.1).y - (p g.1).y) - ((p g.2.2).y - (p g.1).y) * ((p f.1).x - (p g.1).x)) * (e2 - e1)
        + (-((p g.2.1).x - (p g.1).x) * ((p f.1).y - (p g.1).y) + ((p g.2.1).y - (p g.1).y) * ((p f.1).x - (p g.1).x)) * (e3 - e1)
    by_contra h
    apply hl
    ext
    · exact (mul_eq_zero.1 kx).resolve_left h
    · exact (mul_eq_zero.1 ky).resolve_left h
    · exact (mul_eq_zero.1 kz).resolve_left h
  have hs := hg.closed_sum o (p f.1)
  have hneg : (fs.map fun g => height p g o - height p g (p f.1)).sum < 0 := by
    refine sum_neg_of h0 fun g hgm => ?_
    rw [hzero g hgm, sub_zero]
    exact hg.inner g hgm
  linarith

omit [IsStrictOrderedRing K] in
theorem pencil2 (l s t y : V3 K) (hy : dot3 l y = 0) : dot3 l l * dot3 (cross3 s t) y = dot3 l s * dot3 (cross3 y l) t - dot3 (cross3 y l) s * dot3 l t := by
  simp only [dot3, cross3] at *
  linear_combination (l.x * (s.y * t.z - s.z * t.y) + l.y * (s.z * t.x - s.x * t.z) + l.z * (s.x * t.y - s.y * t.x)) * hy

/-- No plane supports the corners at a point that is strictly below all faces. -/
theorem Good.no_support (hg : Good p o fs) {l : V3 K} (hl : l ≠ 0) {w : Nat} (hw : Used fs w) (hmax : ∀ u, Used fs u → dot3 l (p u) ≤ dot3 l (p w)) {x : V3 K} (hx : ∀ f ∈ fs, height p f x < 0)
    (he : dot3 l x = dot3 l (p w)) : False := by
  have hll : 0 < dot3 l l := by
    simp only [dot3]
    by_contra hn
    apply hl
    have h1 := mul_self_nonneg l.x
    have h2 := mul_self_nonneg l.y
    have h3 := mul_self_nonneg l.z
    ext
    · exact mul_self_eq_zero.1 (by linarith)
    · exact mul_self_eq_zero.1 (by linarith)
    · exact mul_self_eq_zero.1 (by linarith)
  set y := x - p w with hy
  have hly : dot3 l y = 0 := by
    have : dot3 l y = dot3 l x - dot3 l (p w) := by rw [hy]; simp only [dot3, V3.sub_x, V3.sub_y, V3.sub_z]; ring
    rw [this, he, sub_self]
  set a : Nat → K := fun u => dot3 l (p u - p w) with ha
  set b : Nat → K := fun u => dot3 (cross3 y l) (p u - p w) with hb
  have ha0 : ∀ u, Used fs u → a u ≤ 0 := by
    intro u hu
    have := hmax u hu
    have e : a u = dot3 l (p u) - dot3 l (p w) := by rw [ha]; simp only [dot3, V3.sub_x, V3.sub_y, V3.sub_z]; ring
    rw [e]; linarith
  have hface : ∀ f ∈ fs, ∀ u u', IsRot f (w, u, u') → a u * b u' - b u * a u' < 0 := by
    intro f hf u u' hr
    have h1 := hx f hf
    rw [← hr.height, height, vol6_dot] at h1
    have h2 := pencil2 l (p u - p w) (p u' - p w) y hly
    have h3 := mul_neg_of_pos_of_neg hll h1
    simp only at h3
    rw [← hy, h2] at h3
    exact h3
  have hsucc : ∀ u, (w, u) ∈ edgesOf fs → ∃ u', (w, u') ∈ edgesOf fs ∧ a u * b u' - b u * a u' < 0 := by
    intro u hu
    obtain ⟨f, hf, u', hr⟩ := mem_edgesOf.1 hu
    refine ⟨u', hg.rev _ _ (mem_edgesOf.2 ⟨f, hf, u, ?_⟩), hface f hf u u' hr⟩
    obtain ⟨x1, x2, x3⟩ := f
    simp only [IsRot, Prod.mk.injEq] at hr ⊢; tauto
  have hpred : ∀ u, (w, u) ∈ edgesOf fs → ∃ u', (w, u') ∈ edgesOf fs ∧ a u' * b u - b u' * a u < 0 := by
    intro u hu
    obtain ⟨f, hf, u', hr⟩ := mem_edgesOf.1 (hg.rev _ _ hu)
    have hr' : IsRot f (w, u', u) := by
      obtain ⟨x1, x2, x3⟩ := f
      simp only [IsRot, Prod.mk.injEq] at hr ⊢; tauto
    exact ⟨u', mem_edgesOf.2 ⟨f, hf, u, hr'⟩, hface f hf u' u hr'⟩
  have hneg : ∀ u, (w, u) ∈ edgesOf fs → a u < 0 := by
    intro u hu
    rcases (ha0 u (used_iff'.2 ⟨w, hu⟩)).lt_or_eq with h | h
    · exact h
    · exfalso
      obtain ⟨u', hu', h1⟩ := hsucc u hu
      obtain ⟨u'', hu'', h2⟩ := hpred u hu
      have a1 := ha0 u' (used_iff'.2 ⟨w, hu'⟩)
      have a2 := ha0 u'' (used_iff'.2 ⟨w, hu''⟩)
      rw [h] at h1 h2
      have h1' : 0 < b u * a u' := by linarith
      have h2' : a u'' * b u < 0 := by linarith
      have b1 : b u < 0 := by
        by_contra hn
        have := mul_nonneg (not_lt.1 hn) (neg_nonneg.2 a1)
        linarith
      have := mul_nonneg_of_nonpos_of_nonpos a2 b1.le
      linarith
  classical
  obtain ⟨v, hv⟩ := used_iff.1 hw
  obtain ⟨m, hm, hmin⟩ := Finset.exists_min_image (((edgesOf fs).filter fun e => e.1 = w).map Prod.snd).toFinset (fun u => b u / a u)
    ⟨v, by rw [List.mem_toFinset, List.mem_map]; exact ⟨(w, v), List.mem_filter.2 ⟨hv, by simp⟩, rfl⟩⟩
  have hmem : ∀ u, u ∈ (((edgesOf fs).filter fun e => e.1 = w).map Prod.snd).toFinset ↔ (w, u) ∈ edgesOf fs := by
    intro u
    rw [List.mem_toFinset, List.mem_map]
    constructor
    · rintro ⟨⟨x1, x2⟩, h, rfl⟩
      rw [List.mem_filter, decide_eq_true_eq] at h
      obtain ⟨h, rfl⟩ := h
      exact h
    · intro h
      exact ⟨(w, u), List.mem_filter.2 ⟨h, by simp⟩, rfl⟩
  obtain ⟨m', hm', hlt⟩ := hsucc m ((hmem m).1 hm)
  have h1 := hneg m ((hmem m).1 hm)
  have h2 := hneg m' hm'
  have h3 := hmin m' ((hmem m').2 hm')
  have h4 : b m' / a m' - b m / a m = (a m * b m' - b m * a m') / (a m * a m') := by
    rw [div_sub_div _ _ h2.ne h1.ne]
    congr 1 <;> ring
  have h5 : (a m * b m' - b m * a m') / (a m * a m') < 0 := div_neg_of_neg_of_pos hlt (mul_pos_of_neg_of_neg h1 h2)
  linarith

omit [IsStrictOrderedRing K] in
theorem lerp_height (f : Face) (x y : V3 K) (t : K) : height p f (lerp3 x y t) = (1 - t) * height p f x + t * height p f y := by
  unfold height vol6 lerp3; ring

omit [IsStrictOrderedRing K] in
theorem lerp_dot (l x y : V3 K) (t : K) : dot3 l (lerp3 x y t) = (1 - t) * dot3 l x + t * dot3 l y := by
  unfold dot3 lerp3; ring

/-- A point below or on all faces is not beyond all the corners in any direction. -/
theorem Good.exact (hg : Good p o fs) (h0 : fs ≠ []) {x : V3 K} (hx : ∀ f ∈ fs, height p f x ≤ 0) (l : V3 K) : ∃ w, Used fs w ∧ dot3 l x ≤ dot3 l (p w) := by
  classical
  by_contra hn
  have hlt : ∀ w, Used fs w → dot3 l (p w) < dot3 l x := fun w hw => lt_of_not_ge fun h => hn ⟨w, hw, h⟩
  obtain ⟨f, hf⟩ := List.exists_mem_of_ne_nil _ h0
  have hmem : ∀ u, u ∈ ((edgesOf fs).map Prod.fst).toFinset ↔ Used fs u := by
    intro u
    rw [List.mem_toFinset, List.mem_map, used_iff]
    constructor
    · rintro ⟨⟨x1, x2⟩, h, rfl⟩; exact ⟨x2, h⟩
    · rintro ⟨v, h⟩; exact ⟨(u, v), h, rfl⟩
  obtain ⟨w, hw, hmax⟩ := Finset.exists_max_image ((edgesOf fs).map Prod.fst).toFinset (fun u => dot3 l (p u)) ⟨f.1, (hmem _).2 ⟨f, hf, Or.inl rfl⟩⟩
  have hw := (hmem w).1 hw
  have hmax : ∀ u, Used fs u → dot3 l (p u) ≤ dot3 l (p w) := fun u hu => hmax u ((hmem u).2 hu)
  have hl : l ≠ 0 := by
    rintro rfl
    have := hlt w hw
    simp [dot3] at this
  have hwx := hlt w hw
  -- a point on the plane of support that is strictly below all faces
  have cut : ∀ {y z : V3 K}, (∀ f ∈ fs, height p f y < 0) → (∀ f ∈ fs, height p f z ≤ 0) → (dot3 l y - dot3 l (p w)) * (dot3 l z - dot3 l (p w)) ≤ 0 → dot3 l z ≠ dot3 l (p w) → False := by
    intro y z hy hz hsign hne
    have hd : dot3 l z - dot3 l y ≠ 0 := by
      intro e
      have e' : dot3 l y - dot3 l (p w) = dot3 l z - dot3 l (p w) := by linarith
      rw [e'] at hsign
      exact hne (by have := mul_self_eq_zero.1 (le_antisymm hsign (mul_self_nonneg _)); linarith)
    set t := (dot3 l (p w) - dot3 l y) / (dot3 l z - dot3 l y) with ht
    have et : t * (dot3 l z - dot3 l y) = dot3 l (p w) - dot3 l y := div_mul_cancel₀ _ hd
    have ht0 : 0 ≤ t := by
      have : t = ((dot3 l (p w) - dot3 l y) * (dot3 l z - dot3 l y)) / ((dot3 l z - dot3 l y) * (dot3 l z - dot3 l y)) := by rw [ht]; field_simp
      rw [this]
      refine div_nonneg ?_ (mul_self_nonneg _)
      nlinarith [mul_self_nonneg (dot3 l (p w) - dot3 l y)]
    have ht1 : t < 1 := by
      have h1 : (1 - t) * (dot3 l z - dot3 l y) = dot3 l z - dot3 l (p w) := by linarith
      have : 1 - t = ((dot3 l z - dot3 l (p w)) * (dot3 l z - dot3 l y)) / ((dot3 l z - dot3 l y) * (dot3 l z - dot3 l y)) := by
        rw [← h1]; field_simp
      have h2 : 0 < 1 - t := by
        rw [this]
        refine div_pos ?_ (mul_self_pos.2 hd)
        nlinarith [mul_self_pos.2 (sub_ne_zero.2 hne)]
      linarith
    refine hg.no_support hl hw hmax (x := lerp3 y z t) (fun g hgm => ?_) ?_
    · rw [lerp_height]
      have h1 := mul_pos (sub_pos.2 ht1) (neg_pos.2 (hy g hgm))
      have h2 := mul_nonneg ht0 (neg_nonneg.2 (hz g hgm))
      linarith
    · rw [lerp_dot]; linarith
  rcases le_or_gt (dot3 l o) (dot3 l (p w)) with h | h
  · exact cut hg.inner hx (mul_nonpos_of_nonpos_of_nonneg (by linarith) (by linarith)) hwx.ne'
  · obtain ⟨u, hu, hne⟩ := hg.not_flat h0 hl (dot3 l (p w))
    have := hmax u hu
    exact cut hg.inner (fun g hgm => hg.below g hgm u hu) (mul_nonpos_of_nonneg_of_nonpos (by linarith) (by linarith)) hne

/-! ### The first tetrahedron -/

/-- The middle of four points. -/
def mid4 (a b c d : V3 K) : V3 K := ⟨(a.x + b.x + c.x + d.x) / 4, (a.y + b.y + c.y + d.y) / 4, (a.z + b.z + c.z + d.z) / 4⟩

theorem mid4_vol (a b c x y z w : V3 K) : vol6 a b c (mid4 x y z w) = (vol6 a b c x + vol6 a b c y + vol6 a b c z + vol6 a b c w) / 4 := by
  unfold vol6 mid4; ring

theorem Good.tetra {i j k a : Nat} (h : vol6 (p i) (p j) (p k) (p a) < 0) : Good p (mid4 (p i) (p j) (p k) (p a)) [(i, j, k), (j, i, a), (i, k, a), (k, j, a)] := by
  have e1 : vol6 (p j) (p i) (p a) (p k) = vol6 (p i) (p j) (p k) (p a) := by unfold vol6; ring
  have e2 : vol6 (p i) (p k) (p a) (p j) = vol6 (p i) (p j) (p k) (p a) := by unfold vol6; ring
  have e3 : vol6 (p k) (p j) (p a) (p i) = vol6 (p i) (p j) (p k) (p a) := by unfold vol6; ring
  have hij : i ≠ j := by rintro rfl; rw [vol6_deg1] at h; exact lt_irrefl _ h
  have hjk : j ≠ k := by rintro rfl; rw [vol6_deg2] at h; exact lt_irrefl _ h
  have hik : i ≠ k := by rintro rfl; rw [vol6_deg3] at h; exact lt_irrefl _ h
  have hia : i ≠ a := by rintro rfl; rw [vol6_self1] at h; exact lt_irrefl _ h
  have hja : j ≠ a := by rintro rfl; rw [vol6_self2] at h; exact lt_irrefl _ h
  have hka : k ≠ a := by rintro rfl; rw [vol6_self3] at h; exact lt_irrefl _ h
  have hused : ∀ w, Used [(i, j, k), (j, i, a), (i, k, a), (k, j, a)] w → w = i ∨ w = j ∨ w = k ∨ w = a := by
    rintro w ⟨f, hf, hw⟩
    simp only [List.mem_cons, List.not_mem_nil, or_false] at hf
    rcases hf with rfl | rfl | rfl | rfl <;> simp only at hw <;> tauto
  have hout : ∀ {x y z w : V3 K}, vol6 x y z w < 0 → ¬ InTri x y z w := by
    rintro x y z w hlt ⟨r, s, t, hr, hs, ht, h1, rfl⟩
    rw [vol6_comb h1, vol6_self1, vol6_self2, vol6_self3] at hlt
    simp at hlt
  have hb : ∀ f ∈ [(i, j, k), (j, i, a), (i, k, a), (k, j, a)], ∀ w, w = i ∨ w = j ∨ w = k ∨ w = a → (w = f.1 ∨ w = f.2.1 ∨ w = f.2.2) ∨ height p f (p w) < 0 := by
    intro f hf w hw
    simp only [List.mem_cons, List.not_mem_nil, or_false] at hf
    rcases hf with rfl | rfl | rfl | rfl <;> rcases hw with rfl | rfl | rfl | rfl <;> simp only [height, e1, e2, e3, h, true_or, or_true]
  refine ⟨?_, ?_, ?_, ?_, ?_⟩
  · simp only [edgesOf, fedges, List.flatMap_cons, List.flatMap_nil, List.cons_append, List.nil_append, List.append_nil, List.nodup_cons, List.mem_cons, Prod.mk.injEq, List.not_mem_nil, or_false, not_or,
      not_and, List.nodup_nil, and_true, not_false_eq_true]
    simp only [hij, hjk, hik, hia, hja, hka, hij.symm, hjk.symm, hik.symm, hia.symm, hja.symm, hka.symm, not_false_eq_true, imp_self, implies_true, and_self]
  · intro u v huv
    simp only [edgesOf, fedges, List.flatMap_cons, List.flatMap_nil, List.cons_append, List.nil_append, List.append_nil, List.mem_cons, Prod.mk.injEq, List.not_mem_nil, or_false] at huv ⊢
    rcases huv with ⟨rfl, rfl⟩ | ⟨rfl, rfl⟩ | ⟨rfl, rfl⟩ | ⟨rfl, rfl⟩ | ⟨rfl, rfl⟩ | ⟨rfl, rfl⟩ | ⟨rfl, rfl⟩ | ⟨rfl, rfl⟩ | ⟨rfl, rfl⟩ | ⟨rfl, rfl⟩ | ⟨rfl, rfl⟩ | ⟨rfl, rfl⟩ <;>
      simp only [and_self, true_or, or_true]
  · intro f hf w hw
    rcases hb f hf w (hused w hw) with h' | h'
    · rcases h' with rfl | rfl | rfl
      · exact (vol6_self1 _ _ _).le
      · exact (vol6_self2 _ _ _).le
      · exact (vol6_self3 _ _ _).le
    · exact h'.le
  · intro f hf
    simp only [List.mem_cons, List.not_mem_nil, or_false] at hf
    rcases hf with rfl | rfl | rfl | rfl <;> simp only [height, mid4_vol, vol6_self1, vol6_self2, vol6_self3, e1, e2, e3] <;> linarith
  · intro f hf w hw hin
    rcases hb f hf w (hused w hw) with h' | h'
    · exact h'
    · exact absurd hin (hout h')
end
end Verif.Hull3
