import Mathlib.Tactic.LinearCombination
import Mathlib.Tactic.Linarith
import Verif.Spec.Triangle
/- A triangulation of points with integer coordinates can be checked for `IsDelaunay` by computation. For the examples. -/
namespace Verif.Tri
open Verif Verif.Internal Verif.Geom

/-- Twice the area of a triangle. -/
def iarea (a b c : Int × Int) : Int := (b.1 - a.1) * (c.2 - a.2) - (b.2 - a.2) * (c.1 - a.1)

/-- Not negative if and only if `d` is not inside the circle through `a`, `b`, `c`. -/
def icircle (a b c d : Int × Int) : Int :=
  iarea a b c * ((d.1 - a.1) ^ 2 + (d.2 - a.2) ^ 2) - iarea a d c * ((b.1 - a.1) ^ 2 + (b.2 - a.2) ^ 2) - iarea a b d * ((c.1 - a.1) ^ 2 + (c.2 - a.2) ^ 2)

/-- The point with integer coordinates `z` on the grid with origin `(x, y)` and spacing `u`. -/
def onGrid (x y u : ℝ) (z : Int × Int) : V2 ℝ := ⟨x + u * z.1, y + u * z.2⟩

/-- `tris` are counterclockwise triangles between the points, with nothing inside their circles. -/
def TriOK (Z : List (Int × Int)) (tris : List (Nat × Nat × Nat)) : Prop :=
  ∀ t ∈ tris, t.1 < Z.length ∧ t.2.1 < Z.length ∧ t.2.2 < Z.length ∧ 0 < iarea (Z.getD t.1 0) (Z.getD t.2.1 0) (Z.getD t.2.2 0) ∧ ∀ d ∈ Z, 0 ≤ icircle (Z.getD t.1 0) (Z.getD t.2.1 0) (Z.getD t.2.2 0) d

instance (Z tris) : Decidable (TriOK Z tris) := by unfold TriOK; infer_instance

/-- `Fan`, with bounded quantifiers. -/
def FanOK (tris : List (Nat × Nat × Nat)) (p : Nat) (ts gs : List Nat) : Prop :=
  3 ≤ ts.length ∧ gs.length = ts.length ∧ ts.Nodup ∧ gs.Nodup ∧ (∀ k ∈ ts, p ∈ cornersOf tris k) ∧ (∀ k < tris.length, p ∈ cornersOf tris k → k ∈ ts) ∧
  ∀ k < ts.length, (cornersOf tris (ts.getD k 0)).Perm [p, gs.getD k 0, gs.getD ((k + 1) % ts.length) 0]

instance (tris p ts gs) : Decidable (FanOK tris p ts gs) := by unfold FanOK; infer_instance

theorem fan_of_check {tris : List (Nat × Nat × Nat)} {p : Nat} {ts gs : List Nat} (h : FanOK tris p ts gs) : Fan tris p ts gs := by
  obtain ⟨h1, h2, h3, h4, h5, h6, h7⟩ := h
  refine ⟨h1, h2, h3, h4, fun k => ⟨h5 k, fun hk => h6 k ?_ hk⟩, h7⟩
  by_contra hc
  unfold cornersOf at hk
  rw [List.getElem?_eq_none (by omega)] at hk
  simp at hk

/-- Three triangles with an edge in common are not three different ones. -/
def ThreeOK (tris : List (Nat × Nat × Nat)) (a b c : Nat) : Prop := ∀ p ∈ cornersOf tris a, ∀ q ∈ cornersOf tris a,
  (p ≠ q ∧ p ∈ cornersOf tris b ∧ q ∈ cornersOf tris b ∧ p ∈ cornersOf tris c ∧ q ∈ cornersOf tris c) → a = b ∨ a = c ∨ b = c

instance (tris a b c) : Decidable (ThreeOK tris a b c) := by unfold ThreeOK; infer_instance

/-- `TwoPerEdge`, with bounded quantifiers. -/
def TwoOK (tris : List (Nat × Nat × Nat)) : Prop := ∀ a < tris.length, ∀ b < tris.length, ∀ c < tris.length, ThreeOK tris a b c

instance (tris) : Decidable (TwoOK tris) := by unfold TwoOK; infer_instance

theorem two_of_check {tris : List (Nat × Nat × Nat)} (h : TwoOK tris) : TwoPerEdge tris := by
  have lt : ∀ {p k}, p ∈ cornersOf tris k → k < tris.length := by
    intro p k hk
    by_contra hc
    unfold cornersOf at hk
    rw [List.getElem?_eq_none (by omega)] at hk
    simp at hk
  intro p q a b c hpq ha hb hc
  exact h a (lt ha.1) b (lt hb.1) c (lt hc.1) p ha.1 q ha.2 ⟨hpq, hb.1, hb.2, hc.1, hc.2⟩

theorem area_grid (x y u : ℝ) (a b c : Int × Int) : area2 (onGrid x y u a) (onGrid x y u b) (onGrid x y u c) = u ^ 2 * (iarea a b c : Int) := by
  unfold area2 onGrid iarea
  push_cast; ring

theorem circle_grid {x y u : ℝ} {a b c d : Int × Int} {X : V2 ℝ} (hu : 0 < u) (ha : 0 < iarea a b c) (hc : 0 ≤ icircle a b c d)
    (h1 : sq2 X (onGrid x y u a) = sq2 X (onGrid x y u b)) (h2 : sq2 X (onGrid x y u b) = sq2 X (onGrid x y u c)) : sq2 X (onGrid x y u a) ≤ sq2 X (onGrid x y u d) := by
  have ha' : (0 : ℝ) < (iarea a b c : Int) := by exact_mod_cast ha
  have hc' : (0 : ℝ) ≤ (icircle a b c d : Int) := by exact_mod_cast hc
  have h3 := h1.trans h2
  have key : (iarea a b c : ℝ) * (sq2 X (onGrid x y u d) - sq2 X (onGrid x y u a)) = u ^ 2 * (icircle a b c d : Int) := by
    unfold icircle
    unfold sq2 onGrid at h1 h3 ⊢
    unfold iarea
    push_cast
    linear_combination -(((d.1 : ℝ) - a.1) * (c.2 - a.2) - (d.2 - a.2) * (c.1 - a.1)) * h1 - (((b.1 : ℝ) - a.1) * (d.2 - a.2) - (b.2 - a.2) * (d.1 - a.1)) * h3
  have : 0 ≤ (iarea a b c : ℝ) * (sq2 X (onGrid x y u d) - sq2 X (onGrid x y u a)) := by rw [key]; positivity
  have := nonneg_of_mul_nonneg_right this ha'
  linarith

/-- Triangulations that pass the check satisfy `IsDelaunay`. -/
theorem delaunay_of_check {x y u : ℝ} (hu : 0 < u) {Z : List (Int × Int)} {n : Nat} {tris : List (Nat × Nat × Nat)} (h1 : TriOK Z tris) (h2 : TwoOK tris)
    (fans : Nat → List Nat × List Nat) (h3 : ∀ p < n, p < Z.length ∧ FanOK tris p (fans p).1 (fans p).2 ∧
      ∀ k < (fans p).2.length, (fans p).2.getD k 0 < Z.length ∧ 0 < iarea (Z.getD p 0) (Z.getD ((fans p).2.getD k 0) 0) (Z.getD ((fans p).2.getD ((k + 1) % (fans p).2.length) 0) 0)) :
    IsDelaunay (Z.map (onGrid x y u)) n tris := by
  have get : ∀ {k}, k < Z.length → (Z.map (onGrid x y u))[k]? = some (onGrid x y u (Z.getD k 0)) := by
    intro k hk
    simp [List.getD, hk]
  refine ⟨?_, ?_, ?_, two_of_check h2⟩
  · intro t ht
    obtain ⟨a, b, c, d, _⟩ := h1 t ht
    refine ⟨_, _, _, get a, get b, get c, ?_⟩
    rw [area_grid]
    have : (0 : ℝ) < (iarea (Z.getD t.1 0) (Z.getD t.2.1 0) (Z.getD t.2.2 0) : Int) := by exact_mod_cast d
    positivity
  · intro t ht A B C X hA hB hC e1 e2 P hP
    obtain ⟨a, b, c, d, e⟩ := h1 t ht
    rw [get a] at hA; rw [get b] at hB; rw [get c] at hC
    injection hA with hA; injection hB with hB; injection hC with hC
    subst hA; subst hB; subst hC
    obtain ⟨z, hz, rfl⟩ := List.mem_map.1 hP
    exact circle_grid hu d (e z hz) e1 e2
  · intro p hp
    obtain ⟨a, b, c⟩ := h3 p hp
    refine ⟨_, _, fan_of_check b, fun k hk => ?_⟩
    obtain ⟨d, e⟩ := c k hk
    obtain ⟨d', _⟩ := c ((k + 1) % (fans p).2.length) (Nat.mod_lt _ (by omega))
    refine ⟨_, _, _, get a, get d, get d', ?_⟩
    rw [area_grid]
    have : (0 : ℝ) < (iarea (Z.getD p 0) (Z.getD ((fans p).2.getD k 0) 0) (Z.getD ((fans p).2.getD ((k + 1) % (fans p).2.length) 0) 0) : Int) := by exact_mod_cast e
    positivity
end Verif.Tri
