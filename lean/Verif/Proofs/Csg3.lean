import Verif.Model.Csg3
import Verif.Proofs.Bsp
import Verif.Spec.Csg3
import Mathlib.Tactic.Ring
import Mathlib.Tactic.FieldSimp
import Mathlib.Tactic.LinearCombination
import Mathlib.Tactic.Positivity
import Mathlib.Data.List.Rotate
/-
The laws of polygons and planes.
-/
namespace Verif.Csg
open Verif Verif.Geom

variable {K : Type} [Field K] [LinearOrder K] [IsStrictOrderedRing K]

/-! ### Turns -/

omit [LinearOrder K] [IsStrictOrderedRing K] in
theorem turn_lerp1 (n a b c d : V3 K) (s : K) : turn n (lerp3 a b s) c d = (1 - s) * turn n a c d + s * turn n b c d := by
  simp only [turn, dot3, cross3, lerp3, V3.sub_x, V3.sub_y, V3.sub_z]; ring
omit [LinearOrder K] [IsStrictOrderedRing K] in
theorem turn_rot (n a b c : V3 K) : turn n b c a = turn n a b c := by
  simp only [turn, dot3, cross3, V3.sub_x, V3.sub_y, V3.sub_z]; ring
omit [LinearOrder K] [IsStrictOrderedRing K] in
theorem turn_swap (n a b c : V3 K) : turn n a c b = -turn n a b c := by
  simp only [turn, dot3, cross3, V3.sub_x, V3.sub_y, V3.sub_z]; ring
omit [LinearOrder K] [IsStrictOrderedRing K] in
theorem turn_lerp2 (n a b c d : V3 K) (s : K) : turn n c (lerp3 a b s) d = (1 - s) * turn n c a d + s * turn n c b d := by
  simp only [turn, dot3, cross3, lerp3, V3.sub_x, V3.sub_y, V3.sub_z]; ring
omit [LinearOrder K] [IsStrictOrderedRing K] in
theorem turn_lerp3 (n a b c d : V3 K) (s : K) : turn n c d (lerp3 a b s) = (1 - s) * turn n c d a + s * turn n c d b := by
  simp only [turn, dot3, cross3, lerp3, V3.sub_x, V3.sub_y, V3.sub_z]; ring
omit [LinearOrder K] [IsStrictOrderedRing K] in
theorem turn_same1 (n a b : V3 K) : turn n a a b = 0 := by
  simp only [turn, dot3, cross3, V3.sub_x, V3.sub_y, V3.sub_z]; ring
omit [LinearOrder K] [IsStrictOrderedRing K] in
theorem turn_same2 (n a b : V3 K) : turn n a b b = 0 := by
  simp only [turn, dot3, cross3, V3.sub_x, V3.sub_y, V3.sub_z]; ring
omit [LinearOrder K] [IsStrictOrderedRing K] in
theorem turn_same3 (n a b : V3 K) : turn n a b a = 0 := by
  simp only [turn, dot3, cross3, V3.sub_x, V3.sub_y, V3.sub_z]; ring
omit [LinearOrder K] [IsStrictOrderedRing K] in
theorem lerp3_zero (a b : V3 K) : lerp3 a b 0 = a := by ext <;> simp [lerp3]

theorem conv_pos {s x y : K} (h0 : 0 ≤ s) (h1 : s < 1) (hx : 0 < x) (hy : 0 ≤ y) : 0 < (1 - s) * x + s * y := by
  have := mul_pos (sub_pos.2 h1) hx
  have := mul_nonneg h0 hy
  linarith
theorem conv_pos' {s x y : K} (h0 : 0 < s) (h1 : s ≤ 1) (hx : 0 ≤ x) (hy : 0 < y) : 0 < (1 - s) * x + s * y := by
  have := mul_nonneg (sub_nonneg.2 h1) hx
  have := mul_pos h0 hy
  linarith
theorem conv_nonneg {s x y : K} (h0 : 0 ≤ s) (h1 : s ≤ 1) (hx : 0 ≤ x) (hy : 0 ≤ y) : 0 ≤ (1 - s) * x + s * y := by
  have := mul_nonneg (sub_nonneg.2 h1) hx
  have := mul_nonneg h0 hy
  linarith

/-! ### A convex polygon as a periodic sequence of vertices -/

/-- `w` runs round a strictly convex polygon with `m` vertices, again and again. -/
structure Round (n : V3 K) (m : Nat) (w : Nat → V3 K) : Prop where
  three : 3 ≤ m
  period : ∀ i, w (i + m) = w i
  pos : ∀ i j k, i < j → j < k → k < m → 0 < turn n (w i) (w j) (w k)

theorem Round.add_mul {n : V3 K} {m : Nat} {w : Nat → V3 K} (h : Round n m w) (i k : Nat) : w (i + m * k) = w i := by
  induction k with
  | zero => rfl
  | succ k ih => rw [Nat.mul_succ, ← Nat.add_assoc, h.period, ih]

theorem Round.mod {n : V3 K} {m : Nat} {w : Nat → V3 K} (h : Round n m w) (i : Nat) : w (i % m) = w i := by
  conv_rhs => rw [← Nat.mod_add_div i m]
  rw [h.add_mul]

/-- Three vertices met in this order within one round turn left. -/
theorem Round.turn_pos {n : V3 K} {m : Nat} {w : Nat → V3 K} (h : Round n m w) {i j k : Nat} (hij : i < j) (hjk : j < k) (hk : k < i + m) :
    0 < turn n (w i) (w j) (w k) := by
  have key : ∀ i j k, i < m → i < j → j < k → k < i + m → 0 < turn n (w i) (w j) (w k) := by
    intro i j k hi hij hjk hk
    by_cases h1 : k < m
    · exact h.pos i j k hij hjk h1
    · obtain ⟨k', rfl⟩ := Nat.exists_eq_add_of_le' (not_lt.1 h1)
      rw [h.period]
      by_cases h2 : j < m
      · rw [turn_rot]
        exact h.pos k' i j (by omega) hij h2
      · obtain ⟨j', rfl⟩ := Nat.exists_eq_add_of_le' (not_lt.1 h2)
        rw [h.period, ← turn_rot]
        exact h.pos j' k' i (by omega) (by omega) hi
  have hm : 0 < m := by have := h.three; omega
  have e := Nat.mod_add_div i m
  have hlt := Nat.mod_lt i hm
  set q := m * (i / m) with hq
  have := key (i % m) (j - q) (k - q) hlt (by omega) (by omega) (by omega)
  have ej : w (j - q) = w j := by
    conv_rhs => rw [show j = (j - q) + q by omega, hq, h.add_mul]
  have ek : w (k - q) = w k := by
    conv_rhs => rw [show k = (k - q) + q by omega, hq, h.add_mul]
  rwa [ej, ek, h.mod] at this

theorem Round.turn_nonneg {n : V3 K} {m : Nat} {w : Nat → V3 K} (h : Round n m w) {i j k : Nat} (hij : i ≤ j) (hjk : j ≤ k) (hk : k ≤ i + m) :
    0 ≤ turn n (w i) (w j) (w k) := by
  rcases hij.eq_or_lt with rfl | hij
  · rw [turn_same1]
  rcases hjk.eq_or_lt with rfl | hjk
  · rw [turn_same2]
  rcases hk.eq_or_lt with rfl | hk
  · rw [h.period, turn_same3]
  exact (h.turn_pos hij hjk hk).le

/-! ### Vertices of a piece -/

/-- The point at parameter `a.2` of side `a.1`. -/
def sidePt (w : Nat → V3 K) (a : Nat × K) : V3 K := lerp3 (w a.1) (w (a.1 + 1)) a.2

/-- The vertices that are kept, and the points where sides are cut, in order. -/
def sel (m : Nat) (keep : Nat → Bool) (cut : Nat → Option K) : List (Nat × K) :=
  (List.range m).flatMap fun i => (if keep i then [(i, 0)] else []) ++ (cut i).toList.map fun s => (i, s)

omit [LinearOrder K] [IsStrictOrderedRing K] in
theorem mem_sel {m : Nat} {keep : Nat → Bool} {cut : Nat → Option K} {i : Nat} {s : K} :
    (i, s) ∈ sel m keep cut ↔ i < m ∧ (keep i = true ∧ s = 0 ∨ cut i = some s) := by
  simp only [sel, List.mem_flatMap, List.mem_range, List.mem_append, List.mem_map, Option.mem_toList]
  constructor
  · rintro ⟨j, hj, h | ⟨s', h1, h2⟩⟩
    · split at h
      · rename_i hk
        simp only [List.mem_singleton, Prod.mk.injEq] at h
        obtain ⟨rfl, rfl⟩ := h
        exact ⟨hj, Or.inl ⟨hk, rfl⟩⟩
      · simp at h
    · simp only [Prod.mk.injEq] at h2
      obtain ⟨rfl, rfl⟩ := h2
      exact ⟨hj, Or.inr h1⟩
  · rintro ⟨hi, ⟨hk, rfl⟩ | h⟩
    · exact ⟨i, hi, Or.inl (by simp [hk])⟩
    · exact ⟨i, hi, Or.inr ⟨s, h, rfl⟩⟩

omit [LinearOrder K] [IsStrictOrderedRing K] in
theorem sel_pairwise (m : Nat) (keep : Nat → Bool) (cut : Nat → Option K) :
    (sel m keep cut).Pairwise fun a b => a.1 < b.1 ∨ a.1 = b.1 ∧ a.2 = 0 ∧ keep a.1 = true ∧ cut a.1 = some b.2 := by
  rw [sel, List.pairwise_flatMap]
  constructor
  · intro i _
    cases hk : keep i <;> cases hc : cut i <;> simp [hk, hc]
  · refine List.pairwise_lt_range.imp ?_
    intro i j hij x hx y hy
    left
    have e1 : x.1 = i := by
      simp only [List.mem_append, List.mem_map] at hx
      rcases hx with hx | ⟨s, _, rfl⟩
      · split at hx <;> simp at hx; rw [hx]
      · rfl
    have e2 : y.1 = j := by
      simp only [List.mem_append, List.mem_map] at hy
      rcases hy with hy | ⟨s, _, rfl⟩
      · split at hy <;> simp at hy; rw [hy]
      · rfl
    omega

/-- Three of the points in order turn left, if no side that is cut is kept at both ends. -/
theorem sel_turn {n : V3 K} {m : Nat} {w : Nat → V3 K} (h : Round n m w) {keep : Nat → Bool} {cut : Nat → Option K}
    (hcut : ∀ i s, cut i = some s → 0 < s ∧ s < 1 ∧ ¬ (keep i = true ∧ keep (i + 1) = true)) (hper : keep m = keep 0) {a b c : Nat × K}
    (ha : a ∈ sel m keep cut) (hb : b ∈ sel m keep cut) (hc : c ∈ sel m keep cut)
    (hab : a.1 < b.1 ∨ a.1 = b.1 ∧ a.2 = 0 ∧ keep a.1 = true ∧ cut a.1 = some b.2)
    (hbc : b.1 < c.1 ∨ b.1 = c.1 ∧ b.2 = 0 ∧ keep b.1 = true ∧ cut b.1 = some c.2) :
    0 < turn n (sidePt w a) (sidePt w b) (sidePt w c) := by
  obtain ⟨i, s⟩ := a
  obtain ⟨j, r⟩ := b
  obtain ⟨k, t⟩ := c
  have h3 := h.three
  rw [mem_sel] at ha hb hc
  dsimp only at hab hbc
  have range : ∀ {i s}, (keep i = true ∧ s = 0 ∨ cut i = some s) → 0 ≤ s ∧ s < 1 := by
    rintro i s (⟨-, rfl⟩ | h)
    · exact ⟨le_rfl, zero_lt_one⟩
    · exact ⟨(hcut i s h).1.le, (hcut i s h).2.1⟩
  obtain ⟨s0, s1⟩ := range ha.2
  obtain ⟨r0, r1⟩ := range hb.2
  obtain ⟨t0, t1⟩ := range hc.2
  simp only [sidePt]
  rcases hab with hij | ⟨rfl, rfl, ki, ci⟩
  · rcases hbc with hjk | ⟨rfl, rfl, kj, cj⟩
    · -- all on different sides
      rw [turn_lerp1]
      have aux : ∀ i', i' ≤ i + 1 → i ≤ i' → 0 ≤ turn n (w i') (lerp3 (w j) (w (j + 1)) r) (lerp3 (w k) (w (k + 1)) t) := by
        intro i' h1 h2
        rw [turn_lerp2, turn_lerp3, turn_lerp3]
        refine conv_nonneg r0 r1.le (conv_nonneg t0 t1.le ?_ ?_) (conv_nonneg t0 t1.le ?_ ?_) <;>
          exact h.turn_nonneg (by omega) (by omega) (by omega)
      refine conv_pos s0 s1 ?_ (aux _ le_rfl (by omega))
      rw [turn_lerp2, turn_lerp3, turn_lerp3]
      refine conv_pos r0 r1 (conv_pos t0 t1 ?_ ?_) (conv_nonneg t0 t1.le ?_ ?_)
      · exact h.turn_pos hij hjk (by omega)
      all_goals exact h.turn_nonneg (by omega) (by omega) (by omega)
    · -- the last two on the same side
      obtain ⟨t0', -, hnk⟩ := hcut _ _ cj
      rw [lerp3_zero, turn_lerp3, turn_same2, mul_zero, zero_add]
      refine mul_pos t0' ?_
      rw [turn_lerp1]
      by_cases hw : i = 0 ∧ j + 1 = m
      · obtain ⟨rfl, hm⟩ := hw
        rcases ha.2 with ⟨ki, rfl⟩ | ci
        · exact absurd ⟨kj, by rw [hm, hper]; exact ki⟩ hnk
        · refine conv_pos' (hcut _ _ ci).1 s1.le (h.turn_nonneg (by omega) (by omega) (by omega)) (h.turn_pos (by omega) (by omega) (by omega))
      · refine conv_pos s0 s1 (h.turn_pos (by omega) (by omega) (by omega)) (h.turn_nonneg (by omega) (by omega) (by omega))
  · obtain ⟨r0', -, hnk⟩ := hcut _ _ ci
    rcases hbc with hjk | ⟨-, rfl, -, -⟩
    · rw [lerp3_zero, turn_lerp2, turn_same1, mul_zero, zero_add]
      refine mul_pos r0' ?_
      rw [turn_lerp3]
      by_cases hw : k = i + 1
      · subst hw
        rcases hc.2 with ⟨kk, rfl⟩ | ck
        · exact absurd ⟨ki, kk⟩ hnk
        · refine conv_pos' (hcut _ _ ck).1 t1.le (h.turn_nonneg (by omega) (by omega) (by omega)) (h.turn_pos (by omega) (by omega) (by omega))
      · refine conv_pos t0 t1 (h.turn_pos (by omega) (by omega) (by omega)) (h.turn_nonneg (by omega) (by omega) (by omega))
    · exact absurd r0' (lt_irrefl _)

/-! ### Covering -/

omit [LinearOrder K] [IsStrictOrderedRing K] in
theorem dot_lerp (n a b : V3 K) (s : K) : dot3 n (lerp3 a b s) = (1 - s) * dot3 n a + s * dot3 n b := by
  simp only [dot3, lerp3]; ring

/-- A function that is affine and bounded on the vertices is bounded on the hull. -/
theorem hull_ge {l : List (V3 K)} {n q : V3 K} {c : K} (h : ∀ v ∈ l, c ≤ dot3 n v) (hq : Hull3 l q) : c ≤ dot3 n q := by
  induction hq with
  | pt h' => exact h _ h'
  | @seg p q t _ _ h0 h1 ih1 ih2 => rw [dot_lerp]; nlinarith
theorem hull_le {l : List (V3 K)} {n q : V3 K} {c : K} (h : ∀ v ∈ l, dot3 n v ≤ c) (hq : Hull3 l q) : dot3 n q ≤ c := by
  induction hq with
  | pt h' => exact h _ h'
  | @seg p q t _ _ h0 h1 ih1 ih2 => rw [dot_lerp]; nlinarith

omit [IsStrictOrderedRing K] in
theorem hull_mono {l l' : List (V3 K)} (h : ∀ v ∈ l, Hull3 l' v) {q : V3 K} (hq : Hull3 l q) : Hull3 l' q := by
  induction hq with
  | pt h' => exact h _ h'
  | seg _ _ h0 h1 ih1 ih2 => exact .seg ih1 ih2 h0 h1

/-- The segment from `a` to `b` meets the set `M`. -/
def Meets (M : V3 K → Prop) (a b : V3 K) : Prop := ∃ s, 0 ≤ s ∧ s ≤ 1 ∧ M (lerp3 a b s)

theorem meets_swap {M : V3 K → Prop} {a b : V3 K} (h : Meets M a b) : Meets M b a := by
  obtain ⟨s, s0, s1, h⟩ := h
  refine ⟨1 - s, by linarith, by linarith, ?_⟩
  rwa [show lerp3 b a (1 - s) = lerp3 a b s by ext <;> simp only [lerp3] <;> ring]

/-- A side of a triangle that goes through its corner `c` and the side opposite meets what crosses the other two. -/
theorem meets_convex {M : V3 K → Prop} (hM : ∀ {p q t}, M p → M q → 0 ≤ t → t ≤ 1 → M (lerp3 p q t)) {a b c : V3 K} {u : K} (u0 : 0 ≤ u) (u1 : u ≤ 1)
    (ha : Meets M a c) (hb : Meets M b c) : Meets M (lerp3 a b u) c := by
  obtain ⟨s, s0, s1, hs⟩ := ha
  obtain ⟨r, r0, r1, hr⟩ := hb
  -- the point of the segment between `(1-s)a+sc` and `(1-r)b+rc` at `l`, such that the weights of `a` and `b` are as `1-u` to `u`
  rcases eq_or_lt_of_le s1 with rfl | s1
  · refine ⟨1, zero_le_one, le_rfl, ?_⟩
    rwa [show lerp3 (lerp3 a b u) c 1 = lerp3 a c 1 by ext <;> simp only [lerp3] <;> ring]
  rcases eq_or_lt_of_le r1 with rfl | r1
  · refine ⟨1, zero_le_one, le_rfl, ?_⟩
    rwa [show lerp3 (lerp3 a b u) c 1 = lerp3 b c 1 by ext <;> simp only [lerp3] <;> ring]
  have hd : 0 < (1 - u) * (1 - r) + u * (1 - s) := by
    rcases eq_or_lt_of_le u0 with rfl | u0'
    · nlinarith
    · have := mul_pos u0' (sub_pos.2 s1)
      have := mul_nonneg (sub_nonneg.2 u1) (sub_pos.2 r1).le
      linarith
  have n1 : 0 ≤ u * (1 - s) := mul_nonneg u0 (sub_pos.2 s1).le
  have n2 : 0 ≤ (1 - u) * (1 - r) := mul_nonneg (sub_nonneg.2 u1) (sub_pos.2 r1).le
  set d := (1 - u) * (1 - r) + u * (1 - s) with hdd
  have n3 : (1 - s) * (1 - r) ≤ d := by
    have e : d - (1 - s) * (1 - r) = (1 - u) * (1 - r) * s + u * (1 - s) * r := by rw [hdd]; ring
    have := mul_nonneg n2 s0
    have := mul_nonneg n1 r0
    linarith
  have n4 : 0 ≤ (1 - s) * (1 - r) := mul_nonneg (sub_pos.2 s1).le (sub_pos.2 r1).le
  refine ⟨1 - (1 - s) * (1 - r) / d, ?_, ?_, ?_⟩
  · have := (div_le_one hd).2 n3; linarith
  · have := div_nonneg n4 hd.le; linarith
  · have := hM hs hr (t := u * (1 - s) / d) (div_nonneg n1 hd.le) ((div_le_one hd).2 (by linarith))
    have e : lerp3 (lerp3 a b u) c (1 - (1 - s) * (1 - r) / d) = lerp3 (lerp3 a c s) (lerp3 b c r) (u * (1 - s) / d) := by
      have hd' : d ≠ 0 := hd.ne'
      ext <;> simp only [lerp3] <;> field_simp <;> rw [hdd] <;> ring
    rwa [e]

/-- Two convex sets with a common part that meets all segments from vertices of one to vertices of the other: their union is convex. -/
theorem hull_cover {l lf lb : List (V3 K)} {M : V3 K → Prop} (hM : ∀ {p q t}, M p → M q → 0 ≤ t → t ≤ 1 → M (lerp3 p q t)) (hMf : ∀ q, M q → Hull3 lf q) (hMb : ∀ q, M q → Hull3 lb q)
    (hl : ∀ v ∈ l, v ∈ lf ∨ v ∈ lb) (hmeet : ∀ u ∈ lf, ∀ v ∈ lb, Meets M u v) {q : V3 K} (hq : Hull3 l q) : Hull3 lf q ∨ Hull3 lb q := by
  have m1 : ∀ v ∈ lb, ∀ a, Hull3 lf a → Meets M a v := by
    intro v hv a ha
    induction ha with
    | pt h => exact hmeet _ h v hv
    | seg _ _ h0 h1 ih1 ih2 => exact meets_convex hM h0 h1 ih1 ih2
  have m2 : ∀ a, Hull3 lf a → ∀ b, Hull3 lb b → Meets M a b := by
    intro a ha b hb
    induction hb with
    | pt h => exact m1 _ h a ha
    | seg _ _ h0 h1 ih1 ih2 => exact meets_swap (meets_convex hM h0 h1 (meets_swap ih1) (meets_swap ih2))
  have m3 : ∀ a, Hull3 lf a → ∀ b, Hull3 lb b → ∀ t, 0 ≤ t → t ≤ 1 → Hull3 lf (lerp3 a b t) ∨ Hull3 lb (lerp3 a b t) := by
    intro a ha b hb t t0 t1
    obtain ⟨s, s0, s1, hs⟩ := m2 a ha b hb
    rcases le_total t s with h | h
    · left
      rcases eq_or_lt_of_le s0 with rfl | s0
      · have : t = 0 := le_antisymm h t0
        subst this; rwa [lerp3_zero]
      · have := Hull3.seg (t := t / s) ha (hMf _ hs) (by positivity) ((div_le_one s0).2 h)
        rwa [show lerp3 a (lerp3 a b s) (t / s) = lerp3 a b t by ext <;> simp only [lerp3] <;> field_simp <;> ring] at this
    · right
      rcases eq_or_lt_of_le s1 with rfl | s1
      · have : t = 1 := le_antisymm t1 h
        subst this
        rwa [show lerp3 a b 1 = b by ext <;> simp only [lerp3] <;> ring]
      · have hd : 0 < 1 - s := by linarith
        have := Hull3.seg (t := (t - s) / (1 - s)) (hMb _ hs) hb (div_nonneg (by linarith) hd.le) ((div_le_one hd).2 (by linarith))
        rwa [show lerp3 (lerp3 a b s) b ((t - s) / (1 - s)) = lerp3 a b t by ext <;> simp only [lerp3] <;> field_simp <;> ring] at this
  induction hq with
  | pt h =>
    rcases hl _ h with h | h
    · exact Or.inl (.pt h)
    · exact Or.inr (.pt h)
  | @seg p q t _ _ h0 h1 ih1 ih2 =>
    rcases ih1 with i1 | i1 <;> rcases ih2 with i2 | i2
    · exact Or.inl (.seg i1 i2 h0 h1)
    · exact m3 _ i1 _ i2 t h0 h1
    · have := m3 _ i2 _ i1 (1 - t) (by linarith) (by linarith)
      rwa [show lerp3 q p (1 - t) = lerp3 p q t by ext <;> simp only [lerp3] <;> ring] at this
    · exact Or.inr (.seg i1 i2 h0 h1)

/-- A point of the plane that is neither left nor right of the line from `u` to `v`, and between them in height, is on the segment. -/
theorem on_segment {n N u v m : V3 K} {w : K} (hn : n ≠ 0) (hu : dot3 n u = w) (hv : dot3 n v = w) (hm : dot3 n m = w) (ht : turn n u m v = 0)
    (h1 : dot3 N v ≤ dot3 N m) (h2 : dot3 N m ≤ dot3 N u) (h3 : dot3 N v < dot3 N u) : ∃ s, 0 ≤ s ∧ s ≤ 1 ∧ lerp3 u v s = m := by
  have hnn : 0 < dot3 n n := by
    have : n.x ≠ 0 ∨ n.y ≠ 0 ∨ n.z ≠ 0 := by
      by_contra hc; push Not at hc
      exact hn (V3.ext hc.1 hc.2.1 hc.2.2)
    simp only [dot3]
    rcases this with h | h | h
    · nlinarith [mul_self_pos.2 h, mul_self_nonneg n.y, mul_self_nonneg n.z]
    · nlinarith [mul_self_pos.2 h, mul_self_nonneg n.x, mul_self_nonneg n.z]
    · nlinarith [mul_self_pos.2 h, mul_self_nonneg n.x, mul_self_nonneg n.y]
  have pa : dot3 n (m - u) = 0 := by
    have : dot3 n (m - u) = dot3 n m - dot3 n u := by simp only [dot3, V3.sub_x, V3.sub_y, V3.sub_z]; ring
    rw [this, hm, hu, sub_self]
  have pb : dot3 n (v - u) = 0 := by
    have : dot3 n (v - u) = dot3 n v - dot3 n u := by simp only [dot3, V3.sub_x, V3.sub_y, V3.sub_z]; ring
    rw [this, hv, hu, sub_self]
  set a := m - u with ha
  set b := v - u with hb
  have hc : dot3 n (cross3 a b) = 0 := ht
  have cx : cross3 a b = 0 := by
    have hne := hnn.ne'
    simp only [dot3, cross3] at pa pb hc hne
    ext <;> simp only [cross3, V3.zero_x, V3.zero_y, V3.zero_z] <;> refine (mul_eq_zero.1 ?_).resolve_right hne
    · linear_combination n.x * hc + (n.y * b.z - n.z * b.y) * pa - (n.y * a.z - n.z * a.y) * pb
    · linear_combination n.y * hc + (n.z * b.x - n.x * b.z) * pa - (n.z * a.x - n.x * a.z) * pb
    · linear_combination n.z * hc + (n.x * b.y - n.y * b.x) * pa - (n.x * a.y - n.y * a.x) * pb
  have c1 : a.y * b.z - a.z * b.y = 0 := congrArg V3.x cx
  have c2 : a.z * b.x - a.x * b.z = 0 := congrArg V3.y cx
  have c3 : a.x * b.y - a.y * b.x = 0 := congrArg V3.z cx
  have ea : dot3 N a = dot3 N m - dot3 N u := by simp only [ha, dot3, V3.sub_x, V3.sub_y, V3.sub_z]; ring
  have eb : dot3 N b = dot3 N v - dot3 N u := by simp only [hb, dot3, V3.sub_x, V3.sub_y, V3.sub_z]; ring
  have hd : dot3 N b ≠ 0 := by rw [eb]; linarith
  refine ⟨dot3 N a / dot3 N b, ?_, ?_, ?_⟩
  · rw [ea, eb]; exact div_nonneg_of_nonpos (by linarith) (by linarith)
  · rw [ea, eb, div_le_one_of_neg (by linarith)]; linarith
  · have hx : dot3 N a * b.x = a.x * dot3 N b := by simp only [dot3]; linear_combination -N.y * c3 + N.z * c2
    have hy : dot3 N a * b.y = a.y * dot3 N b := by simp only [dot3]; linear_combination N.x * c3 - N.z * c1
    have hz : dot3 N a * b.z = a.z * dot3 N b := by simp only [dot3]; linear_combination -N.x * c2 + N.y * c1
    have bx : b.x = v.x - u.x := rfl
    have by' : b.y = v.y - u.y := rfl
    have bz : b.z = v.z - u.z := rfl
    have ax : a.x = m.x - u.x := rfl
    have ay : a.y = m.y - u.y := rfl
    have az : a.z = m.z - u.z := rfl
    ext <;> simp only [lerp3]
    · rw [← bx, div_mul_eq_mul_div, hx, mul_div_assoc, div_self hd, ax]; ring
    · rw [← by', div_mul_eq_mul_div, hy, mul_div_assoc, div_self hd, ay]; ring
    · rw [← bz, div_mul_eq_mul_div, hz, mul_div_assoc, div_self hd, az]; ring

/-! ### Splitting -/

/-- The vertices of a polygon, again and again. -/
def cyc (vs : List (V3 K)) (i : Nat) : V3 K := vs.getD (i % vs.length) 0

omit [LinearOrder K] [IsStrictOrderedRing K] in
theorem edges3_eq (vs : List (V3 K)) : edges3 vs = (List.range vs.length).map fun i => (cyc vs i, cyc vs (i + 1)) := by
  apply List.ext_getElem
  · simp [edges3]
  · intro i h1 h2
    simp only [edges3, List.length_zip, List.length_rotate, min_self] at h1
    have hm : (i + 1) % vs.length < vs.length := Nat.mod_lt _ (by omega)
    simp [edges3, List.getElem_rotate, cyc, Nat.mod_eq_of_lt h1, h1, hm]

theorem round_of {q : Poly K} (hq : PolyW q) : Round q.plane.normal q.verts.length (cyc q.verts) where
  three := hq.three
  period i := by simp [cyc]
  pos i j k hij hjk hk := by
    simp only [cyc]
    rw [Nat.mod_eq_of_lt (by omega), Nat.mod_eq_of_lt (by omega), Nat.mod_eq_of_lt hk]
    exact hq.convex i j k hij hjk hk

omit [LinearOrder K] [IsStrictOrderedRing K] in
theorem cyc_mem {vs : List (V3 K)} (h : vs ≠ []) (i : Nat) : cyc vs i ∈ vs := by
  have : i % vs.length < vs.length := Nat.mod_lt _ (List.length_pos_of_ne_nil h)
  simp [cyc, this]

omit [LinearOrder K] [IsStrictOrderedRing K] in
theorem mem_cyc {vs : List (V3 K)} {v : V3 K} (h : v ∈ vs) : ∃ i, i < vs.length ∧ cyc vs i = v := by
  obtain ⟨i, hi, rfl⟩ := List.getElem_of_mem h
  exact ⟨i, hi, by simp [cyc, Nat.mod_eq_of_lt hi, hi]⟩

omit [IsStrictOrderedRing K] in
theorem cls3_cases (eps t : K) :
    (cls3 eps t = 2 ∧ t < -eps) ∨ (cls3 eps t = 1 ∧ eps < t) ∨ (cls3 eps t = 0 ∧ -eps ≤ t ∧ t ≤ eps) := by
  unfold cls3
  by_cases h1 : t < -eps
  · simp [h1]
  · by_cases h2 : eps < t
    · simp [h1, h2]
    · simp [h1, h2, not_lt.1 h1, not_lt.1 h2]

/-- Class of vertex `i`. -/
def vcls (eps : K) (p : Plane K) (vs : List (V3 K)) (i : Nat) : Nat := cls3 eps (dot3 p.normal (cyc vs i) - p.w)

/-- Where side `i` is cut. -/
def vcut (eps : K) (p : Plane K) (vs : List (V3 K)) (i : Nat) : Option K :=
  if vcls eps p vs i ||| vcls eps p vs (i + 1) = 3 then some ((p.w - dot3 p.normal (cyc vs i)) / dot3 p.normal (cyc vs (i + 1) - cyc vs i)) else none

/-- The vertices of the front and of the back piece. -/
def vfront (eps : K) (p : Plane K) (vs : List (V3 K)) : List (Nat × K) := sel vs.length (fun i => vcls eps p vs i ≠ 2) (vcut eps p vs)
def vback (eps : K) (p : Plane K) (vs : List (V3 K)) : List (Nat × K) := sel vs.length (fun i => vcls eps p vs i ≠ 1) (vcut eps p vs)

omit [IsStrictOrderedRing K] in
theorem span_front (eps : K) (p : Plane K) (vs : List (V3 K)) :
    (edges3 vs).flatMap (fun e => (edge3 eps p e.1 e.2).1) = (vfront eps p vs).map (sidePt (cyc vs)) := by
  rw [edges3_eq, List.flatMap_map, vfront, sel, List.map_flatMap]
  congr 1
  funext i
  simp only [edge3, vcut, vcls, List.map_append]
  congr 1
  · by_cases h : cls3 eps (dot3 p.normal (cyc vs i) - p.w) = 2
    · simp [h]
    · simp [h, sidePt, lerp3_zero]
  · by_cases h : cls3 eps (dot3 p.normal (cyc vs i) - p.w) ||| cls3 eps (dot3 p.normal (cyc vs (i + 1)) - p.w) = 3
    · simp [h, sidePt, cut3, lerpC3, lerp3, mul_comm]
    · simp [h]

omit [IsStrictOrderedRing K] in
theorem span_back (eps : K) (p : Plane K) (vs : List (V3 K)) :
    (edges3 vs).flatMap (fun e => (edge3 eps p e.1 e.2).2) = (vback eps p vs).map (sidePt (cyc vs)) := by
  rw [edges3_eq, List.flatMap_map, vback, sel, List.map_flatMap]
  congr 1
  funext i
  simp only [edge3, vcut, vcls, List.map_append]
  congr 1
  · by_cases h : cls3 eps (dot3 p.normal (cyc vs i) - p.w) = 1
    · simp [h]
    · simp [h, sidePt, lerp3_zero]
  · by_cases h : cls3 eps (dot3 p.normal (cyc vs i) - p.w) ||| cls3 eps (dot3 p.normal (cyc vs (i + 1)) - p.w) = 3
    · simp [h, sidePt, cut3, lerpC3, lerp3, mul_comm]
    · simp [h]

theorem vcls_cases {eps : K} (h0 : 0 ≤ eps) (p : Plane K) (vs : List (V3 K)) (i : Nat) :
    (vcls eps p vs i = 2 ∧ dot3 p.normal (cyc vs i) - p.w < -eps) ∨ (vcls eps p vs i = 1 ∧ eps < dot3 p.normal (cyc vs i) - p.w)
    ∨ (vcls eps p vs i = 0 ∧ -eps ≤ dot3 p.normal (cyc vs i) - p.w ∧ dot3 p.normal (cyc vs i) - p.w ≤ eps) := cls3_cases eps _

/-- A side is cut in its interior, in the plane, and its ends are on different sides. -/
theorem vcut_spec {eps : K} (h0 : 0 ≤ eps) {p : Plane K} {vs : List (V3 K)} {i : Nat} {s : K} (h : vcut eps p vs i = some s) :
    0 < s ∧ s < 1 ∧ dot3 p.normal (sidePt (cyc vs) (i, s)) = p.w
    ∧ (vcls eps p vs i = 1 ∧ vcls eps p vs (i + 1) = 2 ∨ vcls eps p vs i = 2 ∧ vcls eps p vs (i + 1) = 1) := by
  unfold vcut at h
  split at h
  · rename_i h3
    obtain rfl := Option.some.inj h
    have hd : dot3 p.normal (cyc vs (i + 1) - cyc vs i) = dot3 p.normal (cyc vs (i + 1)) - dot3 p.normal (cyc vs i) := by
      simp only [dot3, V3.sub_x, V3.sub_y, V3.sub_z]; ring
    simp only [sidePt]
    rw [dot_lerp, hd]
    set x := dot3 p.normal (cyc vs i)
    set y := dot3 p.normal (cyc vs (i + 1))
    rcases vcls_cases h0 p vs i with ⟨e1, g1⟩ | ⟨e1, g1⟩ | ⟨e1, g1⟩ <;> rcases vcls_cases h0 p vs (i + 1) with ⟨e2, g2⟩ | ⟨e2, g2⟩ | ⟨e2, g2⟩ <;> rw [e1, e2] at h3 <;>
      simp at h3
    · have hne : y - x ≠ 0 := by simp only [x, y]; linarith
      refine ⟨div_pos (by simp only [x]; linarith) (by simp only [x, y]; linarith), ?_, ?_, Or.inr ⟨e1, e2⟩⟩
      · rw [div_lt_one (by simp only [x, y]; linarith)]; simp only [x, y]; linarith
      · field_simp; ring
    · have hne : y - x ≠ 0 := by simp only [x, y]; linarith
      refine ⟨div_pos_of_neg_of_neg (by simp only [x]; linarith) (by simp only [x, y]; linarith), ?_, ?_, Or.inl ⟨e1, e2⟩⟩
      · rw [div_lt_one_of_neg (by simp only [x, y]; linarith)]; simp only [x, y]; linarith
      · field_simp; ring
  · simp at h

/-- A vertex in the plane or a cut. -/
def Mid (eps : K) (p : Plane K) (vs : List (V3 K)) (i : Nat) (s : K) : Prop := vcls eps p vs i = 0 ∧ s = 0 ∨ vcut eps p vs i = some s

/-- On the way from a vertex in front to one behind, or back, there is one. -/
theorem exists_mid {eps : K} (h0 : 0 ≤ eps) (p : Plane K) (vs : List (V3 K)) : ∀ (d i : Nat), (vcls eps p vs i = 1 ∧ vcls eps p vs (i + d) = 2 ∨ vcls eps p vs i = 2 ∧ vcls eps p vs (i + d) = 1) →
    ∃ k s, i ≤ k ∧ k < i + d ∧ Mid eps p vs k s := by
  intro d
  induction d with
  | zero => intro i h; rw [Nat.add_zero] at h; omega
  | succ d ih =>
    intro i h
    have hc : ∀ a b, (a = 1 ∧ b = 2 ∨ a = 2 ∧ b = 1) → a ||| b = 3 := by rintro a b (⟨rfl, rfl⟩ | ⟨rfl, rfl⟩) <;> rfl
    have e : i + 1 + d = i + (d + 1) := by omega
    have go : (vcls eps p vs (i + 1) = 1 ∧ vcls eps p vs (i + 1 + d) = 2 ∨ vcls eps p vs (i + 1) = 2 ∧ vcls eps p vs (i + 1 + d) = 1) →
        ∃ k s, i ≤ k ∧ k < i + (d + 1) ∧ Mid eps p vs k s := by
      intro h
      obtain ⟨k, s, h1, h2, h3⟩ := ih (i + 1) h
      exact ⟨k, s, by omega, by omega, h3⟩
    have here : (vcls eps p vs i = 1 ∧ vcls eps p vs (i + 1) = 2 ∨ vcls eps p vs i = 2 ∧ vcls eps p vs (i + 1) = 1) →
        ∃ k s, i ≤ k ∧ k < i + (d + 1) ∧ Mid eps p vs k s := by
      intro h
      exact ⟨i, _, le_rfl, by omega, Or.inr (by rw [vcut, if_pos (hc _ _ h)])⟩
    have mid : vcls eps p vs (i + 1) = 0 → ∃ k s, i ≤ k ∧ k < i + (d + 1) ∧ Mid eps p vs k s := by
      intro h1
      rcases Nat.eq_zero_or_pos d with rfl | hd
      · rcases h with ⟨_, h⟩ | ⟨_, h⟩ <;> rw [h1] at h <;> simp at h
      · exact ⟨i + 1, 0, by omega, by omega, Or.inl ⟨h1, rfl⟩⟩
    rw [← e] at h
    rcases vcls_cases h0 p vs (i + 1) with ⟨h1, -⟩ | ⟨h1, -⟩ | ⟨h1, -⟩
    · rcases h with h | h
      · exact here (Or.inl ⟨h.1, h1⟩)
      · exact go (Or.inr ⟨h1, h.2⟩)
    · rcases h with h | h
      · exact go (Or.inl ⟨h1, h.2⟩)
      · exact here (Or.inr ⟨h.1, h1⟩)
    · exact mid h1

omit [IsStrictOrderedRing K] in
theorem vcls_mod (eps : K) (p : Plane K) (vs : List (V3 K)) (i : Nat) : vcls eps p vs (i % vs.length) = vcls eps p vs i := by
  simp [vcls, cyc]
omit [IsStrictOrderedRing K] in
theorem vcls_succ_mod (eps : K) (p : Plane K) (vs : List (V3 K)) (i : Nat) : vcls eps p vs (i % vs.length + 1) = vcls eps p vs (i + 1) := by
  simp [vcls, cyc]
omit [IsStrictOrderedRing K] in
theorem vcut_mod (eps : K) (p : Plane K) (vs : List (V3 K)) (i : Nat) : vcut eps p vs (i % vs.length) = vcut eps p vs i := by
  simp [vcut, vcls, cyc]
omit [LinearOrder K] [IsStrictOrderedRing K] in
theorem sidePt_mod (vs : List (V3 K)) (i : Nat) (s : K) : sidePt (cyc vs) (i % vs.length, s) = sidePt (cyc vs) (i, s) := by
  simp [sidePt, cyc]

omit [IsStrictOrderedRing K] in
theorem mid_mem {eps : K} {p : Plane K} {vs : List (V3 K)} (hv : vs ≠ []) {i : Nat} {s : K} (h : Mid eps p vs i s) :
    (i % vs.length, s) ∈ vfront eps p vs ∧ (i % vs.length, s) ∈ vback eps p vs := by
  have hl := Nat.mod_lt i (List.length_pos_of_ne_nil hv)
  simp only [vfront, vback, mem_sel, decide_eq_true_eq, vcls_mod, vcut_mod]
  rcases h with ⟨h, rfl⟩ | h
  · exact ⟨⟨hl, Or.inl ⟨by omega, rfl⟩⟩, ⟨hl, Or.inl ⟨by omega, rfl⟩⟩⟩
  · exact ⟨⟨hl, Or.inr h⟩, ⟨hl, Or.inr h⟩⟩

theorem mid_height {eps : K} (h0 : 0 ≤ eps) {p : Plane K} {vs : List (V3 K)} {i : Nat} {s : K} (h : Mid eps p vs i s) :
    -eps ≤ dot3 p.normal (sidePt (cyc vs) (i, s)) - p.w ∧ dot3 p.normal (sidePt (cyc vs) (i, s)) - p.w ≤ eps := by
  rcases h with ⟨h, rfl⟩ | h
  · rcases vcls_cases h0 p vs i with ⟨h1, -⟩ | ⟨h1, -⟩ | ⟨-, h1⟩
    · omega
    · omega
    · simpa [sidePt, lerp3_zero] using h1
  · rw [(vcut_spec h0 h).2.2.1]; constructor <;> linarith

theorem mid_range {eps : K} (h0 : 0 ≤ eps) {p : Plane K} {vs : List (V3 K)} {i : Nat} {s : K} (h : Mid eps p vs i s) : 0 ≤ s ∧ s < 1 := by
  rcases h with ⟨-, rfl⟩ | h
  · exact ⟨le_rfl, zero_lt_one⟩
  · exact ⟨(vcut_spec h0 h).1.le, (vcut_spec h0 h).2.1⟩

/-! ### The pieces -/

theorem dot_self_pos {n : V3 K} (hn : n ≠ 0) : 0 < dot3 n n := by
  have : n.x ≠ 0 ∨ n.y ≠ 0 ∨ n.z ≠ 0 := by
    by_contra hc; push Not at hc
    exact hn (V3.ext hc.1 hc.2.1 hc.2.2)
  simp only [dot3]
  rcases this with h | h | h
  · nlinarith [mul_self_pos.2 h, mul_self_nonneg n.y, mul_self_nonneg n.z]
  · nlinarith [mul_self_pos.2 h, mul_self_nonneg n.x, mul_self_nonneg n.z]
  · nlinarith [mul_self_pos.2 h, mul_self_nonneg n.x, mul_self_nonneg n.y]

omit [IsStrictOrderedRing K] in
theorem ne_zero_of_turn {n a b c : V3 K} (h : 0 < turn n a b c) : n ≠ 0 := by
  rintro rfl
  simp [turn, dot3] at h

/-- The plane through three points of a plane has the same direction. -/
theorem plane_of_scale {n a b c : V3 K} {w : K} (ht : 0 < turn n a b c) (ha : dot3 n a = w) (hb : dot3 n b = w) (hc : dot3 n c = w) :
    ∃ k : K, 0 < k ∧ (Plane.of a b c).normal = V3.scale k n ∧ (Plane.of a b c).w = k * w := by
  have hnn := dot_self_pos (ne_zero_of_turn ht)
  have pa : dot3 n (b - a) = 0 := by
    have : dot3 n (b - a) = dot3 n b - dot3 n a := by simp only [dot3, V3.sub_x, V3.sub_y, V3.sub_z]; ring
    rw [this, hb, ha, sub_self]
  have pb : dot3 n (c - a) = 0 := by
    have : dot3 n (c - a) = dot3 n c - dot3 n a := by simp only [dot3, V3.sub_x, V3.sub_y, V3.sub_z]; ring
    rw [this, hc, ha, sub_self]
  have hN : (Plane.of a b c).normal = V3.scale (turn n a b c / dot3 n n) n := by
    have hne := hnn.ne'
    simp only [Plane.of, turn]
    set u := b - a
    set v := c - a
    simp only [dot3] at pa pb hne
    ext <;> simp only [V3.scale_x, V3.scale_y, V3.scale_z, cross3, dot3] <;> rw [div_mul_eq_mul_div, eq_div_iff hne]
    · linear_combination (n.y * v.z - n.z * v.y) * pa - (n.y * u.z - n.z * u.y) * pb
    · linear_combination (n.z * v.x - n.x * v.z) * pa - (n.z * u.x - n.x * u.z) * pb
    · linear_combination (n.x * v.y - n.y * v.x) * pa - (n.x * u.y - n.y * u.x) * pb
  refine ⟨turn n a b c / dot3 n n, div_pos ht hnn, hN, ?_⟩
  have : (Plane.of a b c).w = dot3 (Plane.of a b c).normal a := rfl
  rw [this, hN, ← ha]
  simp only [dot3, V3.scale_x, V3.scale_y, V3.scale_z]; ring

omit [LinearOrder K] [IsStrictOrderedRing K] in
theorem dot_scale (k : K) (n v : V3 K) : dot3 (V3.scale k n) v = k * dot3 n v := by
  simp only [dot3, V3.scale_x, V3.scale_y, V3.scale_z]; ring
omit [LinearOrder K] [IsStrictOrderedRing K] in
theorem turn_scale (k : K) (n a b c : V3 K) : turn (V3.scale k n) a b c = k * turn n a b c := dot_scale _ _ _

/-- A polygon made from a list of vertices that are in a plane and turn left. -/
theorem polyW_of {n : V3 K} {w : K} {l : List (V3 K)} (h3 : 3 ≤ l.length) (hp : ∀ v ∈ l, dot3 n v = w)
    (hc : ∀ i j k, i < j → j < k → k < l.length → 0 < turn n (l.getD i 0) (l.getD j 0) (l.getD k 0)) : PolyW (Poly.of l) := by
  match l, h3 with
  | a :: b :: c :: l, _ =>
    obtain ⟨k, k0, e1, e2⟩ := plane_of_scale (hc 0 1 2 (by omega) (by omega) (by simp)) (hp _ (by simp)) (hp _ (by simp)) (hp _ (by simp)) (a := a) (b := b) (c := c)
    refine ⟨by simp [Poly.of], ?_, ?_⟩
    · intro v hv
      show dot3 (Plane.of a b c).normal v = (Plane.of a b c).w
      rw [e1, e2, dot_scale, hp v hv]
    · intro i j m hij hjm hm
      show 0 < turn (Plane.of a b c).normal _ _ _
      rw [e1, turn_scale]
      exact mul_pos k0 (hc i j m hij hjm hm)

theorem sidePt_planar {q : Poly K} (hq : PolyW q) (a : Nat × K) : dot3 q.plane.normal (sidePt (cyc q.verts) a) = q.plane.w := by
  have hne : q.verts ≠ [] := by have := hq.three; intro h; simp [h] at this
  rw [sidePt, dot_lerp, hq.planar _ (cyc_mem hne _), hq.planar _ (cyc_mem hne _)]; ring

theorem sel_turns {q : Poly K} (hq : PolyW q) {keep : Nat → Bool} {cut : Nat → Option K}
    (hcut : ∀ i s, cut i = some s → 0 < s ∧ s < 1 ∧ ¬ (keep i = true ∧ keep (i + 1) = true)) (hper : keep q.verts.length = keep 0) (i j k : Nat) (hij : i < j) (hjk : j < k)
    (hk : k < ((sel q.verts.length keep cut).map (sidePt (cyc q.verts))).length) :
    0 < turn q.plane.normal (((sel q.verts.length keep cut).map (sidePt (cyc q.verts))).getD i 0) (((sel q.verts.length keep cut).map (sidePt (cyc q.verts))).getD j 0)
      (((sel q.verts.length keep cut).map (sidePt (cyc q.verts))).getD k 0) := by
  rw [List.length_map] at hk
  have hpw := List.pairwise_iff_getElem.1 (sel_pairwise q.verts.length keep cut)
  have hi : i < (sel q.verts.length keep cut).length := by omega
  have hj : j < (sel q.verts.length keep cut).length := by omega
  have := sel_turn (round_of hq) hcut hper (List.getElem_mem hi) (List.getElem_mem hj) (List.getElem_mem hk) (hpw i j hi hj hij) (hpw j k hj hk hjk)
  simpa [List.getD_eq_getElem?_getD, hi, hj, hk] using this

/-- Kept vertices and cuts, if there are at least three, make a strictly convex polygon. -/
theorem sel_polyW {q : Poly K} (hq : PolyW q) {keep : Nat → Bool} {cut : Nat → Option K}
    (hcut : ∀ i s, cut i = some s → 0 < s ∧ s < 1 ∧ ¬ (keep i = true ∧ keep (i + 1) = true)) (hper : keep q.verts.length = keep 0)
    (h3 : 3 ≤ (sel q.verts.length keep cut).length) : PolyW (Poly.of ((sel q.verts.length keep cut).map (sidePt (cyc q.verts)))) := by
  refine polyW_of (n := q.plane.normal) (w := q.plane.w) (by simpa using h3) ?_ (sel_turns hq hcut hper)
  intro v hv
  obtain ⟨a, -, rfl⟩ := List.mem_map.1 hv
  exact sidePt_planar hq a

theorem mod_ne {m a b : Nat} (h1 : a < b) (h2 : b < a + m) : a % m ≠ b % m := by
  intro h
  have := Nat.sub_mod_eq_zero_of_mod_eq h.symm
  rw [Nat.mod_eq_of_lt (by omega)] at this
  omega

/-- Between a vertex in front and a vertex behind, there is a middle on either way. -/
theorem two_mids {eps : K} (h0 : 0 ≤ eps) {p : Plane K} {vs : List (V3 K)} {i j : Nat} (hi : i < vs.length) (hj : j < vs.length) (ci : vcls eps p vs i = 1) (cj : vcls eps p vs j = 2) :
    ∃ j' k1 s1 k2 s2, i < j' ∧ j' < i + vs.length ∧ j' % vs.length = j ∧ i ≤ k1 ∧ k1 < j' ∧ j' ≤ k2 ∧ k2 < i + vs.length ∧ Mid eps p vs k1 s1 ∧ Mid eps p vs k2 s2 := by
  have key : ∀ j', i < j' → j' < i + vs.length → j' % vs.length = j → ∃ j' k1 s1 k2 s2, i < j' ∧ j' < i + vs.length ∧ j' % vs.length = j ∧ i ≤ k1 ∧ k1 < j' ∧ j' ≤ k2 ∧ k2 < i + vs.length
      ∧ Mid eps p vs k1 s1 ∧ Mid eps p vs k2 s2 := by
    intro j' h1 h2 h3
    have cj' : vcls eps p vs j' = 2 := by rw [← vcls_mod, h3, cj]
    have ci' : vcls eps p vs (i + vs.length) = 1 := by rw [← vcls_mod, Nat.add_mod_right, vcls_mod, ci]
    obtain ⟨k1, s1, a1, a2, a3⟩ := exists_mid h0 p vs (j' - i) i (Or.inl ⟨ci, by rw [Nat.add_sub_cancel' h1.le, cj']⟩)
    obtain ⟨k2, s2, b1, b2, b3⟩ := exists_mid h0 p vs (i + vs.length - j') j' (Or.inr ⟨cj', by rw [Nat.add_sub_cancel' h2.le, ci']⟩)
    exact ⟨j', k1, s1, k2, s2, h1, h2, h3, a1, by omega, b1, by omega, a3, b3⟩
  rcases lt_trichotomy i j with h | h | h
  · exact key j h (by omega) (Nat.mod_eq_of_lt hj)
  · rw [h, cj] at ci; omega
  · exact key (j + vs.length) (by omega) (by omega) (by rw [Nat.add_mod_right, Nat.mod_eq_of_lt hj])

theorem three_of_mem {α : Type} {l : List α} {a b c : α} (ha : a ∈ l) (hb : b ∈ l) (hc : c ∈ l) (h1 : a ≠ b) (h2 : a ≠ c) (h3 : b ≠ c) : 3 ≤ l.length := by
  have hn : [a, b, c].Nodup := by simp [h1, h2, h3]
  exact (List.subperm_of_subset hn (by intro x hx; simp at hx; rcases hx with rfl | rfl | rfl <;> assumption)).length_le

theorem mid_pos {eps : K} (h0 : 0 ≤ eps) {p : Plane K} {vs : List (V3 K)} {i : Nat} {s : K} (h : Mid eps p vs i s) (hc : vcls eps p vs i ≠ 0) : s ≠ 0 := by
  rcases h with ⟨h, -⟩ | h
  · exact absurd h hc
  · exact (vcut_spec h0 h).1.ne'

theorem front_three {eps : K} (h0 : 0 ≤ eps) {p : Plane K} {vs : List (V3 K)} {i j : Nat} (hi : i < vs.length) (hj : j < vs.length) (ci : vcls eps p vs i = 1) (cj : vcls eps p vs j = 2) :
    3 ≤ (vfront eps p vs).length ∧ 3 ≤ (vback eps p vs).length := by
  have hv : vs ≠ [] := by rintro rfl; simp at hi
  obtain ⟨j', k1, s1, k2, s2, h1, h2, h3, a1, a2, b1, b2, m1, m2⟩ := two_mids h0 hi hj ci cj
  have hk : k1 % vs.length ≠ k2 % vs.length := mod_ne (by omega) (by omega)
  have ei : i % vs.length = i := Nat.mod_eq_of_lt hi
  constructor
  · refine three_of_mem (a := (i, 0)) ?_ (mid_mem hv m1).1 (mid_mem hv m2).1 ?_ ?_ ?_
    · rw [vfront, mem_sel]; exact ⟨hi, Or.inl ⟨by simp [ci], rfl⟩⟩
    · rcases Nat.eq_or_lt_of_le a1 with h | h
      · subst h
        exact fun e => mid_pos h0 m1 (by omega) (Prod.mk.inj e).2.symm
      · intro e
        have := mod_ne (m := vs.length) h (by omega)
        rw [ei] at this
        exact this (Prod.mk.inj e).1
    · intro e
      have := mod_ne (m := vs.length) (a := i) (b := k2) (by omega) b2
      rw [ei] at this
      exact this (Prod.mk.inj e).1
    · exact fun e => hk (Prod.mk.inj e).1
  · have cj' : vcls eps p vs j' = 2 := by rw [← vcls_mod, h3, cj]
    refine three_of_mem (a := (j, 0)) ?_ (mid_mem hv m1).2 (mid_mem hv m2).2 ?_ ?_ ?_
    · rw [vback, mem_sel]; exact ⟨hj, Or.inl ⟨by simp [cj], rfl⟩⟩
    · intro e
      have := mod_ne (m := vs.length) a2 (by omega)
      rw [h3] at this
      exact this (Prod.mk.inj e).1.symm
    · rcases Nat.eq_or_lt_of_le b1 with h | h
      · subst h
        exact fun e => mid_pos h0 m2 (by omega) (Prod.mk.inj e).2.symm
      · intro e
        have := mod_ne (m := vs.length) h (by omega)
        rw [h3] at this
        exact this (Prod.mk.inj e).1
    · exact fun e => hk (Prod.mk.inj e).1

/-- The segment between a vertex in front and a vertex behind goes through a point that both pieces contain. -/
theorem span_meets {eps : K} (h0 : 0 ≤ eps) {p : Plane K} {q : Poly K} (hq : PolyW q) {i j : Nat} (hi : i < q.verts.length) (hj : j < q.verts.length)
    (ci : vcls eps p q.verts i = 1) (cj : vcls eps p q.verts j = 2) :
    Meets (fun x => Hull3 ((vfront eps p q.verts).map (sidePt (cyc q.verts))) x ∧ Hull3 ((vback eps p q.verts).map (sidePt (cyc q.verts))) x) (cyc q.verts i) (cyc q.verts j) := by
  have hv : q.verts ≠ [] := by have := hq.three; intro h; simp [h] at this
  obtain ⟨j', k1, s1, k2, s2, h1, h2, h3, a1, a2, b1, b2, m1, m2⟩ := two_mids h0 hi hj ci cj
  have R := round_of hq
  have ej : cyc q.verts j' = cyc q.verts j := by rw [← h3, R.mod]
  set vs := q.verts with hvs
  set n := q.plane.normal
  set c1 := sidePt (cyc vs) (k1, s1)
  set c2 := sidePt (cyc vs) (k2, s2)
  have t1 : 0 ≤ turn n (cyc vs i) c1 (cyc vs j) := by
    rw [← ej]; simp only [c1, sidePt, turn_lerp2]
    have := mid_range h0 m1
    exact conv_nonneg this.1 this.2.le (R.turn_nonneg (by omega) (by omega) (by omega)) (R.turn_nonneg (by omega) (by omega) (by omega))
  have t2 : turn n (cyc vs i) c2 (cyc vs j) ≤ 0 := by
    rw [turn_swap, ← ej]; simp only [c2, sidePt, turn_lerp3]
    have := mid_range h0 m2
    have := conv_nonneg this.1 this.2.le (R.turn_nonneg (i := i) (j := j') (k := k2) (by omega) (by omega) (by omega)) (R.turn_nonneg (i := i) (j := j') (k := k2 + 1) (by omega) (by omega) (by omega))
    linarith
  obtain ⟨r, r0, r1, hr⟩ : ∃ r, 0 ≤ r ∧ r ≤ 1 ∧ turn n (cyc vs i) (lerp3 c1 c2 r) (cyc vs j) = 0 := by
    rcases eq_or_lt_of_le t1 with e | t1'
    · exact ⟨0, le_rfl, zero_le_one, by rw [lerp3_zero, ← e]⟩
    · set x := turn n (cyc vs i) c1 (cyc vs j)
      set y := turn n (cyc vs i) c2 (cyc vs j)
      have hd : 0 < x - y := by linarith
      refine ⟨x / (x - y), div_nonneg t1 hd.le, (div_le_one hd).2 (by linarith), ?_⟩
      rw [turn_lerp2]
      show (1 - x / (x - y)) * x + x / (x - y) * y = 0
      field_simp; ring
  have hm1 := mid_height h0 m1
  have hm2 := mid_height h0 m2
  have hti : eps < dot3 p.normal (cyc vs i) - p.w := by
    rcases vcls_cases h0 p vs i with ⟨h, -⟩ | ⟨-, h⟩ | ⟨h, -⟩
    · omega
    · exact h
    · omega
  have htj : dot3 p.normal (cyc vs j) - p.w < -eps := by
    rcases vcls_cases h0 p vs j with ⟨-, h⟩ | ⟨h, -⟩ | ⟨h, -⟩
    · exact h
    · omega
    · omega
  have hmd : dot3 p.normal (lerp3 c1 c2 r) = (1 - r) * dot3 p.normal c1 + r * dot3 p.normal c2 := dot_lerp _ _ _ _
  have hlo : p.w - eps ≤ dot3 p.normal (lerp3 c1 c2 r) := by rw [hmd]; nlinarith [hm1.1, hm2.1]
  have hhi : dot3 p.normal (lerp3 c1 c2 r) ≤ p.w + eps := by rw [hmd]; nlinarith [hm1.2, hm2.2]
  have hn : n ≠ 0 := ne_zero_of_turn (hq.convex 0 1 2 (by omega) (by omega) (by have := hq.three; omega))
  obtain ⟨s, s0, s1, e⟩ := on_segment (N := p.normal) hn (hq.planar _ (cyc_mem hv i)) (hq.planar _ (cyc_mem hv j))
    (m := lerp3 c1 c2 r) (by rw [dot_lerp, sidePt_planar hq, sidePt_planar hq]; ring) hr (by linarith) (by linarith) (by linarith)
  refine ⟨s, s0, s1, ?_⟩
  have mem : ∀ {k t}, Mid eps p vs k t → sidePt (cyc vs) (k, t) ∈ (vfront eps p vs).map (sidePt (cyc vs)) ∧ sidePt (cyc vs) (k, t) ∈ (vback eps p vs).map (sidePt (cyc vs)) := by
    intro k t h
    rw [← sidePt_mod]
    exact ⟨List.mem_map_of_mem (mid_mem hv h).1, List.mem_map_of_mem (mid_mem hv h).2⟩
  rw [e]
  exact ⟨.seg (.pt (mem m1).1) (.pt (mem m2).1) r0 r1, .seg (.pt (mem m1).2) (.pt (mem m2).2) r0 r1⟩

/-! ### The laws -/

/-- The type of a polygon. -/
theorem fold_cases (c : V3 K → Nat) : ∀ (l : List (V3 K)) (t : Nat), (∀ v ∈ l, c v = 0 ∨ c v = 1 ∨ c v = 2) → (t = 0 ∨ t = 1 ∨ t = 2 ∨ t = 3) →
    ∃ r, l.foldl (fun t v => t ||| c v) t = r ∧ (r = 0 ∨ r = 1 ∨ r = 2 ∨ r = 3)
      ∧ ((r = 1 ∨ r = 3) ↔ (t = 1 ∨ t = 3 ∨ ∃ v ∈ l, c v = 1)) ∧ ((r = 2 ∨ r = 3) ↔ (t = 2 ∨ t = 3 ∨ ∃ v ∈ l, c v = 2)) := by
  intro l
  induction l with
  | nil => intro t _ ht; exact ⟨t, rfl, ht, by simp, by simp⟩
  | cons v l ih =>
    intro t hl ht
    have hb : ∀ t c : Nat, (t = 0 ∨ t = 1 ∨ t = 2 ∨ t = 3) → (c = 0 ∨ c = 1 ∨ c = 2) → (t ||| c = 0 ∨ t ||| c = 1 ∨ t ||| c = 2 ∨ t ||| c = 3)
        ∧ ((t ||| c = 1 ∨ t ||| c = 3) ↔ (t = 1 ∨ t = 3 ∨ c = 1)) ∧ ((t ||| c = 2 ∨ t ||| c = 3) ↔ (t = 2 ∨ t = 3 ∨ c = 2)) := by
      rintro t c (rfl | rfl | rfl | rfl) (rfl | rfl | rfl) <;> decide
    obtain ⟨b1, b2, b3⟩ := hb t (c v) ht (hl v (by simp))
    obtain ⟨r, h1, h2, h3, h4⟩ := ih (t ||| c v) (fun u hu => hl u (by simp [hu])) b1
    refine ⟨r, h1, h2, h3.trans ?_, h4.trans ?_⟩
    · rw [← or_assoc, b2]; simp only [List.mem_cons, exists_eq_or_imp, or_assoc]
    · rw [← or_assoc, b3]; simp only [List.mem_cons, exists_eq_or_imp, or_assoc]

/-- What splitting does, case by case. -/
theorem splitPoly_cases {eps : K} (h0 : 0 ≤ eps) (p : Plane K) (q : Poly K) :
    ((splitPoly eps p q = { coFront := [q] } ∨ splitPoly eps p q = { coBack := [q] }) ∧ ∀ v ∈ q.verts, -eps ≤ dot3 p.normal v - p.w ∧ dot3 p.normal v - p.w ≤ eps)
    ∨ (splitPoly eps p q = { front := [q] } ∧ (∀ v ∈ q.verts, -eps ≤ dot3 p.normal v - p.w) ∧ ∃ v ∈ q.verts, eps < dot3 p.normal v - p.w)
    ∨ (splitPoly eps p q = { back := [q] } ∧ (∀ v ∈ q.verts, dot3 p.normal v - p.w ≤ eps) ∧ ∃ v ∈ q.verts, dot3 p.normal v - p.w < -eps)
    ∨ (∃ i j, i < q.verts.length ∧ j < q.verts.length ∧ vcls eps p q.verts i = 1 ∧ vcls eps p q.verts j = 2
      ∧ splitPoly eps p q = { front := [Poly.of ((vfront eps p q.verts).map (sidePt (cyc q.verts)))], back := [Poly.of ((vback eps p q.verts).map (sidePt (cyc q.verts)))] }) := by
  have cc := fun v => cls3_cases eps (dot3 p.normal v - p.w)
  obtain ⟨r, h1, h2, h3, h4⟩ := fold_cases (fun v => cls3 eps (dot3 p.normal v - p.w)) q.verts 0
    (fun v _ => by rcases cc v with ⟨h, -⟩ | ⟨h, -⟩ | ⟨h, -⟩ <;> simp [h]) (Or.inl rfl)
  have no1 : ¬ (r = 1 ∨ r = 3) → ∀ v ∈ q.verts, dot3 p.normal v - p.w ≤ eps := by
    intro hr v hv
    rcases cc v with ⟨h, h'⟩ | ⟨h, -⟩ | ⟨-, h⟩
    · linarith
    · exact absurd (h3.2 (Or.inr (Or.inr ⟨v, hv, h⟩))) hr
    · exact h.2
  have no2 : ¬ (r = 2 ∨ r = 3) → ∀ v ∈ q.verts, -eps ≤ dot3 p.normal v - p.w := by
    intro hr v hv
    rcases cc v with ⟨h, -⟩ | ⟨h, h'⟩ | ⟨-, h⟩
    · exact absurd (h4.2 (Or.inr (Or.inr ⟨v, hv, h⟩))) hr
    · linarith
    · exact h.1
  have ex1 : (r = 1 ∨ r = 3) → ∃ v ∈ q.verts, cls3 eps (dot3 p.normal v - p.w) = 1 := by
    intro hr; rcases h3.1 hr with h | h | h
    · omega
    · omega
    · exact h
  have ex2 : (r = 2 ∨ r = 3) → ∃ v ∈ q.verts, cls3 eps (dot3 p.normal v - p.w) = 2 := by
    intro hr; rcases h4.1 hr with h | h | h
    · omega
    · omega
    · exact h
  rcases h2 with rfl | rfl | rfl | rfl
  · left
    refine ⟨?_, fun v hv => ⟨no2 (by omega) v hv, no1 (by omega) v hv⟩⟩
    simp only [splitPoly, h1]
    by_cases hn : dot3 p.normal q.plane.normal > 0
    · left; rw [if_pos hn]
    · right; rw [if_neg hn]
  · right; left
    refine ⟨by simp only [splitPoly, h1], no2 (by omega), ?_⟩
    obtain ⟨v, hv, hc⟩ := ex1 (by omega)
    refine ⟨v, hv, ?_⟩
    rcases cc v with ⟨h, -⟩ | ⟨-, h⟩ | ⟨h, -⟩
    · omega
    · exact h
    · omega
  · right; right; left
    refine ⟨by simp only [splitPoly, h1], no1 (by omega), ?_⟩
    obtain ⟨v, hv, hc⟩ := ex2 (by omega)
    refine ⟨v, hv, ?_⟩
    rcases cc v with ⟨-, h⟩ | ⟨h, -⟩ | ⟨h, -⟩
    · exact h
    · omega
    · omega
  · right; right; right
    obtain ⟨u, hu, cu⟩ := ex1 (by omega)
    obtain ⟨v, hv, cv⟩ := ex2 (by omega)
    obtain ⟨i, hi, rfl⟩ := mem_cyc hu
    obtain ⟨j, hj, rfl⟩ := mem_cyc hv
    refine ⟨i, j, hi, hj, cu, cv, ?_⟩
    have h3 := front_three h0 hi hj cu cv
    simp only [splitPoly, h1, span_front, span_back]
    rw [if_pos (by simpa using h3.1), if_pos (by simpa using h3.2)]

theorem front_cut {eps : K} (h0 : 0 ≤ eps) (p : Plane K) (vs : List (V3 K)) (i : Nat) (s : K) (h : vcut eps p vs i = some s) :
    (0 < s ∧ s < 1 ∧ ¬ (decide (vcls eps p vs i ≠ 2) = true ∧ decide (vcls eps p vs (i + 1) ≠ 2) = true))
    ∧ (0 < s ∧ s < 1 ∧ ¬ (decide (vcls eps p vs i ≠ 1) = true ∧ decide (vcls eps p vs (i + 1) ≠ 1) = true)) := by
  obtain ⟨h1, h2, -, h3⟩ := vcut_spec h0 h
  simp only [decide_eq_true_eq]
  exact ⟨⟨h1, h2, by omega⟩, ⟨h1, h2, by omega⟩⟩

theorem pieces_W {eps : K} (h0 : 0 ≤ eps) {p : Plane K} {q : Poly K} (hq : PolyW q) {i j : Nat} (hi : i < q.verts.length) (hj : j < q.verts.length)
    (ci : vcls eps p q.verts i = 1) (cj : vcls eps p q.verts j = 2) :
    PolyW (Poly.of ((vfront eps p q.verts).map (sidePt (cyc q.verts)))) ∧ PolyW (Poly.of ((vback eps p q.verts).map (sidePt (cyc q.verts)))) := by
  have h3 := front_three h0 hi hj ci cj
  have per : vcls eps p q.verts q.verts.length = vcls eps p q.verts 0 := by rw [← vcls_mod, Nat.mod_self]
  exact ⟨sel_polyW hq (fun i s h => (front_cut h0 p q.verts i s h).1) (by rw [per]) h3.1, sel_polyW hq (fun i s h => (front_cut h0 p q.verts i s h).2) (by rw [per]) h3.2⟩

theorem sel_sub {eps : K} (h0 : 0 ≤ eps) {p : Plane K} {q : Poly K} (hq : 3 ≤ q.verts.length) {keep : Nat → Bool} {x : V3 K}
    (hx : Hull3 ((sel q.verts.length keep (vcut eps p q.verts)).map (sidePt (cyc q.verts))) x) : Hull3 q.verts x := by
  have hv : q.verts ≠ [] := by intro h; simp [h] at hq
  refine hull_mono ?_ hx
  intro v hv'
  obtain ⟨⟨i, s⟩, ha, rfl⟩ := List.mem_map.1 hv'
  obtain ⟨-, ⟨-, rfl⟩ | h⟩ := mem_sel.1 ha
  · rw [sidePt, lerp3_zero]; exact .pt (cyc_mem hv _)
  · have := vcut_spec h0 h
    exact .seg (.pt (cyc_mem hv _)) (.pt (cyc_mem hv _)) this.1.le this.2.1.le

theorem front_height {eps : K} (h0 : 0 ≤ eps) {p : Plane K} {vs : List (V3 K)} {a : Nat × K} (h : a ∈ vfront eps p vs) : p.w - eps ≤ dot3 p.normal (sidePt (cyc vs) a) := by
  obtain ⟨i, s⟩ := a
  obtain ⟨-, ⟨hk, rfl⟩ | h⟩ := mem_sel.1 h
  · rw [sidePt, lerp3_zero]
    have hk : vcls eps p vs i ≠ 2 := of_decide_eq_true hk
    rcases vcls_cases h0 p vs i with ⟨h', -⟩ | ⟨-, h'⟩ | ⟨-, h'⟩
    · omega
    · show _ ≤ dot3 p.normal (cyc vs i); linarith
    · show _ ≤ dot3 p.normal (cyc vs i); linarith [h'.1]
  · rw [(vcut_spec h0 h).2.2.1]; linarith

theorem back_height {eps : K} (h0 : 0 ≤ eps) {p : Plane K} {vs : List (V3 K)} {a : Nat × K} (h : a ∈ vback eps p vs) : dot3 p.normal (sidePt (cyc vs) a) ≤ p.w + eps := by
  obtain ⟨i, s⟩ := a
  obtain ⟨-, ⟨hk, rfl⟩ | h⟩ := mem_sel.1 h
  · rw [sidePt, lerp3_zero]
    have hk : vcls eps p vs i ≠ 1 := of_decide_eq_true hk
    rcases vcls_cases h0 p vs i with ⟨-, h'⟩ | ⟨h', -⟩ | ⟨-, h'⟩
    · show dot3 p.normal (cyc vs i) ≤ _; linarith
    · omega
    · show dot3 p.normal (cyc vs i) ≤ _; linarith [h'.2]
  · rw [(vcut_spec h0 h).2.2.1]; linarith

/-! ### Degenerate polygons -/

theorem PolyL.three {q : Poly K} (hq : PolyL q) : 3 ≤ q.verts.length := by
  rcases hq with h | h
  · exact h.three
  · exact h.three

/-- A point of a line whose height is between the heights of two others is between them. -/
theorem thin_meets {eps : K} (h0 : 0 ≤ eps) {p : Plane K} {q : Poly K} (hq : Thin q) {i j : Nat} (hi : i < q.verts.length) (hj : j < q.verts.length)
    (ci : vcls eps p q.verts i = 1) (cj : vcls eps p q.verts j = 2) :
    Meets (fun x => Hull3 ((vfront eps p q.verts).map (sidePt (cyc q.verts))) x ∧ Hull3 ((vback eps p q.verts).map (sidePt (cyc q.verts))) x) (cyc q.verts i) (cyc q.verts j) := by
  have hv : q.verts ≠ [] := by have := hq.three; intro h; simp [h] at this
  obtain ⟨j', k1, s1, k2, s2, h1, h2, h3, a1, a2, b1, b2, m1, m2⟩ := two_mids h0 hi hj ci cj
  obtain ⟨a, d, hl⟩ := hq.line
  obtain ⟨ti, ei⟩ := hl _ (cyc_mem hv i)
  obtain ⟨tj, ej⟩ := hl _ (cyc_mem hv j)
  obtain ⟨tm, em⟩ : ∃ t, sidePt (cyc q.verts) (k1, s1) = ⟨a.x + t * d.x, a.y + t * d.y, a.z + t * d.z⟩ := by
    obtain ⟨t1, e1⟩ := hl _ (cyc_mem hv k1)
    obtain ⟨t2, e2⟩ := hl _ (cyc_mem hv (k1 + 1))
    refine ⟨(1 - s1) * t1 + s1 * t2, ?_⟩
    simp only [sidePt]
    rw [e1, e2]
    ext <;> simp only [lerp3] <;> ring
  have hm := mid_height h0 m1
  have hM := mid_mem hv m1
  have hci : eps < dot3 p.normal (cyc q.verts i) - p.w := by
    rcases vcls_cases h0 p q.verts i with ⟨h, -⟩ | ⟨-, h⟩ | ⟨h, -⟩
    · omega
    · exact h
    · omega
  have hcj : dot3 p.normal (cyc q.verts j) - p.w < -eps := by
    rcases vcls_cases h0 p q.verts j with ⟨-, h⟩ | ⟨h, -⟩ | ⟨h, -⟩
    · exact h
    · omega
    · omega
  set s := dot3 p.normal d with hs
  have hgt : ∀ t, dot3 p.normal (⟨a.x + t * d.x, a.y + t * d.y, a.z + t * d.z⟩ : V3 K) = dot3 p.normal a + t * s := by
    intro t; simp only [hs, dot3]; ring
  rw [em, hgt] at hm
  rw [ei, hgt] at hci
  rw [ej, hgt] at hcj
  have hpos : 0 < (ti - tj) * s := by linarith
  have hne : ti - tj ≠ 0 := by rintro h; rw [h] at hpos; simp at hpos
  have hsne : s ≠ 0 := by rintro h; rw [h] at hpos; simp at hpos
  refine ⟨(ti - tm) * s / ((ti - tj) * s), div_nonneg (by linarith) hpos.le, (div_le_one hpos).2 (by linarith), ?_⟩
  have e : lerp3 (cyc q.verts i) (cyc q.verts j) ((ti - tm) * s / ((ti - tj) * s)) = sidePt (cyc q.verts) (k1 % q.verts.length, s1) := by
    rw [sidePt_mod, em, ei, ej, mul_div_mul_right _ _ hsne]
    ext <;> simp only [lerp3] <;> field_simp <;> ring
  rw [e]
  exact ⟨.pt (List.mem_map_of_mem hM.1), .pt (List.mem_map_of_mem hM.2)⟩

theorem thin_of {l : List (V3 K)} (h3 : 3 ≤ l.length) (hl : ∃ a d : V3 K, ∀ v ∈ l, ∃ t, v = ⟨a.x + t * d.x, a.y + t * d.y, a.z + t * d.z⟩) : Thin (Poly.of l) := by
  match l, h3 with
  | u :: v :: w :: l, _ =>
    have hl' := hl
    obtain ⟨a, d, h⟩ := hl
    obtain ⟨t1, e1⟩ := h u (by simp)
    obtain ⟨t2, e2⟩ := h v (by simp)
    obtain ⟨t3, e3⟩ := h w (by simp)
    have hn : (Plane.of u v w).normal = 0 := by
      rw [e1, e2, e3]
      ext <;> simp only [Plane.of, cross3, V3.sub_x, V3.sub_y, V3.sub_z, V3.zero_x, V3.zero_y, V3.zero_z] <;> ring
    refine ⟨by simp [Poly.of], hl', hn, ?_⟩
    show dot3 (Plane.of u v w).normal u = 0
    rw [hn]; simp [dot3]

theorem thin_pieces {eps : K} {p : Plane K} {q : Poly K} (hq : Thin q) {l : List (Nat × K)} (h3 : 3 ≤ l.length) : Thin (Poly.of (l.map (sidePt (cyc q.verts)))) := by
  have hv : q.verts ≠ [] := by have := hq.three; intro h; simp [h] at this
  refine thin_of (by simpa using h3) ?_
  obtain ⟨a, d, hl⟩ := hq.line
  refine ⟨a, d, fun v hv' => ?_⟩
  obtain ⟨⟨k, s⟩, -, rfl⟩ := List.mem_map.1 hv'
  obtain ⟨t1, e1⟩ := hl _ (cyc_mem hv k)
  obtain ⟨t2, e2⟩ := hl _ (cyc_mem hv (k + 1))
  refine ⟨(1 - s) * t1 + s * t2, ?_⟩
  simp only [sidePt]
  rw [e1, e2]
  ext <;> simp only [lerp3] <;> ring

/-- The two pieces cover the polygon. -/
theorem pieces_cover {eps : K} (h0 : 0 ≤ eps) {p : Plane K} {q : Poly K} (hq : PolyL q) {x : V3 K} (hx : Hull3 q.verts x) :
    Hull3 ((vfront eps p q.verts).map (sidePt (cyc q.verts))) x ∨ Hull3 ((vback eps p q.verts).map (sidePt (cyc q.verts))) x := by
  have hv : q.verts ≠ [] := by have := hq.three; intro h; simp [h] at this
  have mid : ∀ {k t}, Mid eps p q.verts k t → k < q.verts.length → Hull3 ((vfront eps p q.verts).map (sidePt (cyc q.verts))) (sidePt (cyc q.verts) (k, t))
      ∧ Hull3 ((vback eps p q.verts).map (sidePt (cyc q.verts))) (sidePt (cyc q.verts) (k, t)) := by
    intro k t h hk
    have := mid_mem hv h
    rw [Nat.mod_eq_of_lt hk] at this
    exact ⟨.pt (List.mem_map_of_mem this.1), .pt (List.mem_map_of_mem this.2)⟩
  refine hull_cover (M := fun x => Hull3 ((vfront eps p q.verts).map (sidePt (cyc q.verts))) x ∧ Hull3 ((vback eps p q.verts).map (sidePt (cyc q.verts))) x)
    (fun h1 h2 t0 t1 => ⟨.seg h1.1 h2.1 t0 t1, .seg h1.2 h2.2 t0 t1⟩) (fun _ h => h.1) (fun _ h => h.2) ?_ ?_ hx
  · intro v hv
    obtain ⟨i, hi, rfl⟩ := mem_cyc hv
    have e : sidePt (cyc q.verts) (i, 0) = cyc q.verts i := by rw [sidePt, lerp3_zero]
    by_cases h : vcls eps p q.verts i = 2
    · right; rw [← e]; refine List.mem_map_of_mem (mem_sel.2 ⟨hi, Or.inl ⟨by simp [h], rfl⟩⟩)
    · left; rw [← e]; refine List.mem_map_of_mem (mem_sel.2 ⟨hi, Or.inl ⟨by simp [h], rfl⟩⟩)
  · intro u hu v hv
    obtain ⟨⟨i, s⟩, ha, rfl⟩ := List.mem_map.1 hu
    obtain ⟨⟨j, r⟩, hb, rfl⟩ := List.mem_map.1 hv
    obtain ⟨hi, hia⟩ := mem_sel.1 ha
    obtain ⟨hj, hjb⟩ := mem_sel.1 hb
    simp only [decide_eq_true_eq] at hia hjb
    by_cases hm : Mid eps p q.verts i s
    · exact ⟨0, le_rfl, zero_le_one, by rw [lerp3_zero]; exact mid hm hi⟩
    by_cases hm' : Mid eps p q.verts j r
    · refine ⟨1, zero_le_one, le_rfl, ?_⟩
      rw [show ∀ a b : V3 K, lerp3 a b 1 = b from fun a b => by ext <;> simp only [lerp3] <;> ring]
      exact mid hm' hj
    · have hci : vcls eps p q.verts i = 1 ∧ s = 0 := by
        rcases hia with ⟨h, rfl⟩ | h
        · rcases vcls_cases h0 p q.verts i with ⟨h', -⟩ | ⟨h', -⟩ | ⟨h', -⟩
          · omega
          · exact ⟨h', rfl⟩
          · exact absurd (Or.inl ⟨h', rfl⟩) hm
        · exact absurd (Or.inr h) hm
      have hcj : vcls eps p q.verts j = 2 ∧ r = 0 := by
        rcases hjb with ⟨h, rfl⟩ | h
        · rcases vcls_cases h0 p q.verts j with ⟨h', -⟩ | ⟨h', -⟩ | ⟨h', -⟩
          · exact ⟨h', rfl⟩
          · omega
          · exact absurd (Or.inl ⟨h', rfl⟩) hm'
        · exact absurd (Or.inr h) hm'
      obtain ⟨ci, rfl⟩ := hci
      obtain ⟨cj, rfl⟩ := hcj
      simp only [sidePt, lerp3_zero]
      rcases hq with hq | hq
      · exact span_meets h0 hq hi hj ci cj
      · exact thin_meets h0 hq hi hj ci cj

omit [IsStrictOrderedRing K] in
theorem polyFlips' (eps : K) : FlipLaws (polyOps eps) (polyGeo eps) where
  ok_flip p := by simp [polyOps, Plane.ok, Plane.flip]
  side_flip p q := by simp only [polyGeo, polyOps, Plane.flip, dot3]; ring
  flip_flip p := by simp [polyOps, Plane.flip]
  eflip_eflip s := by simp [polyOps, Poly.flip, Plane.flip]

theorem hull_side_ge {eps m : K} {p : Plane K} {l : List (V3 K)} {x : V3 K} (h : ∀ v ∈ l, m ≤ dot3 p.normal v - p.w) (hx : Hull3 l x) : m ≤ (polyGeo eps).side p x := by
  have := hull_ge (c := m + p.w) (fun v hv => by linarith [h v hv]) hx
  show m ≤ dot3 p.normal x - p.w
  linarith
theorem hull_side_le {eps m : K} {p : Plane K} {l : List (V3 K)} {x : V3 K} (h : ∀ v ∈ l, dot3 p.normal v - p.w ≤ m) (hx : Hull3 l x) : (polyGeo eps).side p x ≤ m := by
  have := hull_le (c := m + p.w) (fun v hv => by linarith [h v hv]) hx
  show dot3 p.normal x - p.w ≤ m
  linarith

theorem flip_polyW {q : Poly K} (hq : PolyW q) : PolyW q.flip := by
  refine ⟨?_, ?_, ?_⟩
  · simpa [Poly.flip] using hq.three
  · intro v hv
    have hv : v ∈ q.verts := by simpa [Poly.flip] using hv
    have := hq.planar v hv
    simp only [Poly.flip, Plane.flip, dot3] at *
    linear_combination -this
  · intro i j k hij hjk hk
    have hk : k < q.verts.length := by simpa [Poly.flip] using hk
    have := hq.convex (q.verts.length - 1 - k) (q.verts.length - 1 - j) (q.verts.length - 1 - i) (by omega) (by omega) (by omega)
    have e : ∀ i, i < q.verts.length → q.verts.reverse.getD i 0 = q.verts.getD (q.verts.length - 1 - i) 0 := by
      intro i hi
      have : q.verts.length - 1 - i < q.verts.length := by omega
      simp [List.getD_eq_getElem?_getD, hi, this]
    show 0 < turn q.plane.flip.normal (q.verts.reverse.getD i 0) (q.verts.reverse.getD j 0) (q.verts.reverse.getD k 0)
    rw [e i (by omega), e j (by omega), e k hk]
    refine this.trans_eq ?_
    simp only [turn, Plane.flip, dot3, cross3, V3.sub_x, V3.sub_y, V3.sub_z]; ring

theorem polySplit {eps : K} (h0 : 0 ≤ eps) : SplitLaws (polyOps eps) (polyGeo eps) PolyL where
  toFlipLaws := polyFlips' eps
  eps_nonneg := h0
  ok_none := by simp [polyOps, Plane.ok]
  eflip_wf q hq := by
    rcases hq with hq | hq
    · exact Or.inl (flip_polyW hq)
    · refine Or.inr ⟨by simpa [polyOps, Poly.flip] using hq.three, ?_, ?_, ?_⟩
      · obtain ⟨a, d, h⟩ := hq.line
        exact ⟨a, d, fun v hv => h v (by simpa [polyOps, Poly.flip] using hv)⟩
      · show q.plane.flip.normal = 0
        simp only [Plane.flip, hq.normal]; ext <;> simp
      · show q.plane.flip.w = 0
        simp [Plane.flip, hq.w]
  eflip_pts q := by
    ext x
    show Hull3 q.verts.reverse x ↔ Hull3 q.verts x
    exact ⟨hull_mono fun v hv => .pt (by simpa using hv), hull_mono fun v hv => .pt (by simpa using hv)⟩
  pieces p q hq x hx := by
    show PolyL x ∧ ∀ y, Hull3 x.verts y → Hull3 q.verts y
    simp only [polyOps] at hx
    rcases splitPoly_cases h0 p q with ⟨h | h, -⟩ | ⟨h, -⟩ | ⟨h, -⟩ | ⟨i, j, hi, hj, ci, cj, h⟩
    · simp only [h, List.mem_singleton, List.not_mem_nil, or_false, false_or] at hx; subst hx; exact ⟨hq, fun _ h => h⟩
    · simp only [h, List.mem_singleton, List.not_mem_nil, or_false, false_or] at hx; subst hx; exact ⟨hq, fun _ h => h⟩
    · simp only [h, List.mem_singleton, List.not_mem_nil, or_false, false_or] at hx; subst hx; exact ⟨hq, fun _ h => h⟩
    · simp only [h, List.mem_singleton, List.not_mem_nil, or_false, false_or] at hx; subst hx; exact ⟨hq, fun _ h => h⟩
    · have h3 := front_three h0 hi hj ci cj
      obtain ⟨w1, w2⟩ : PolyL _ ∧ PolyL _ := by
        rcases hq with hq | hq
        · exact ⟨Or.inl (pieces_W h0 hq hi hj ci cj).1, Or.inl (pieces_W h0 hq hi hj ci cj).2⟩
        · exact ⟨Or.inr (thin_pieces (eps := eps) (p := p) hq h3.1), Or.inr (thin_pieces (eps := eps) (p := p) hq h3.2)⟩
      simp only [h, List.mem_singleton, List.not_mem_nil, or_false, false_or] at hx
      rcases hx with rfl | rfl
      · exact ⟨w1, fun y hy => sel_sub h0 hq.three hy⟩
      · exact ⟨w2, fun y hy => sel_sub h0 hq.three hy⟩
  cover p q hq x hx := by
    show ∃ y : Poly K, _ ∧ Hull3 y.verts x
    have hx' : Hull3 q.verts x := hx
    simp only [polyOps]
    rcases splitPoly_cases h0 p q with ⟨h | h, -⟩ | ⟨h, -⟩ | ⟨h, -⟩ | ⟨i, j, hi, hj, ci, cj, h⟩
    · exact ⟨q, by simp [h], hx'⟩
    · exact ⟨q, by simp [h], hx'⟩
    · exact ⟨q, by simp [h], hx'⟩
    · exact ⟨q, by simp [h], hx'⟩
    · rcases pieces_cover h0 (p := p) hq hx' with h' | h'
      · exact ⟨_, by rw [h]; exact Or.inr (Or.inr (Or.inl (List.mem_singleton.2 rfl))), h'⟩
      · exact ⟨_, by rw [h]; exact Or.inr (Or.inr (Or.inr (List.mem_singleton.2 rfl))), h'⟩
  front_side p q hq x hx y hy := by
    have hy' : Hull3 x.verts y := hy
    show -eps ≤ _
    simp only [polyOps] at hx
    rcases splitPoly_cases h0 p q with ⟨h | h, h1⟩ | ⟨h, h1, -⟩ | ⟨h, h1, -⟩ | ⟨i, j, hi, hj, ci, cj, h⟩
    · simp only [h, List.mem_singleton, List.not_mem_nil, or_false, false_or] at hx; subst hx; exact hull_side_ge (fun v hv => (h1 v hv).1) hy'
    · simp [h] at hx
    · simp only [h, List.mem_singleton, List.not_mem_nil, or_false, false_or] at hx; subst hx; exact hull_side_ge h1 hy'
    · simp [h] at hx
    · simp only [h, List.mem_singleton, List.not_mem_nil, or_false, false_or] at hx; subst hx
      refine hull_side_ge (fun v hv => ?_) hy'
      obtain ⟨a, ha, rfl⟩ := List.mem_map.1 hv
      linarith [front_height h0 ha]
  back_side p q hq x hx y hy := by
    have hy' : Hull3 x.verts y := hy
    show _ ≤ eps
    simp only [polyOps] at hx
    rcases splitPoly_cases h0 p q with ⟨h | h, h1⟩ | ⟨h, h1, -⟩ | ⟨h, h1, -⟩ | ⟨i, j, hi, hj, ci, cj, h⟩
    · simp [h] at hx
    · simp only [h, List.mem_singleton, List.not_mem_nil, or_false, false_or] at hx; subst hx; exact hull_side_le (fun v hv => (h1 v hv).2) hy'
    · simp [h] at hx
    · simp only [h, List.mem_singleton, List.not_mem_nil, or_false, false_or] at hx; subst hx; exact hull_side_le h1 hy'
    · simp only [h, List.mem_singleton, List.not_mem_nil, or_false, false_or] at hx; subst hx
      refine hull_side_le (fun v hv => ?_) hy'
      obtain ⟨a, ha, rfl⟩ := List.mem_map.1 hv
      linarith [back_height h0 ha]
  own q hq := by
    show (splitPoly eps q.plane q).front = [] ∧ (splitPoly eps q.plane q).back = []
    have hz : ∀ v ∈ q.verts, dot3 q.plane.normal v - q.plane.w = 0 := fun v hv => by
      rcases hq with hq | hq
      · rw [hq.planar v hv, sub_self]
      · rw [hq.normal, hq.w]; simp [dot3]
    have hv : q.verts ≠ [] := by have := hq.three; intro h; simp [h] at this
    rcases splitPoly_cases h0 q.plane q with ⟨h | h, -⟩ | ⟨-, -, v, hv, h⟩ | ⟨-, -, v, hv, h⟩ | ⟨i, j, hi, hj, ci, cj, h⟩
    · simp [h]
    · simp [h]
    · rw [hz v hv] at h; linarith
    · rw [hz v hv] at h; linarith
    · rcases vcls_cases h0 q.plane q.verts i with ⟨h', -⟩ | ⟨-, h'⟩ | ⟨h', -⟩
      · omega
      · rw [hz _ (cyc_mem hv i)] at h'; linarith
      · omega
  one p q := by
    show (splitPoly eps p q).front.length ≤ 1 ∧ (splitPoly eps p q).back.length ≤ 1
    rcases splitPoly_cases h0 p q with ⟨h | h, -⟩ | ⟨h, -⟩ | ⟨h, -⟩ | ⟨i, j, hi, hj, ci, cj, h⟩ <;> simp [h]

theorem polyLaws {eps : K} (h0 : 0 ≤ eps) : Laws (polyOps eps) (polyGeo eps) PolyW where
  toFlipLaws := polyFlips' eps
  eps_nonneg := h0
  ok_none := (polySplit h0).ok_none
  ok_plane q hq := by
    have hn := dot_self_pos (ne_zero_of_turn (hq.convex 0 1 2 (by omega) (by omega) (by have := hq.three; omega)))
    show q.plane.ok = true
    simpa [Plane.ok, dot3] using hn
  eflip_wf q hq := flip_polyW hq
  eflip_pts := (polySplit h0).eflip_pts
  pieces p q hq x hx := by
    refine ⟨?_, ((polySplit h0).pieces p q (Or.inl hq) x hx).2⟩
    simp only [polyOps] at hx
    rcases splitPoly_cases h0 p q with ⟨h | h, -⟩ | ⟨h, -⟩ | ⟨h, -⟩ | ⟨i, j, hi, hj, ci, cj, h⟩
    · simp only [h, List.mem_singleton, List.not_mem_nil, or_false, false_or] at hx; subst hx; exact hq
    · simp only [h, List.mem_singleton, List.not_mem_nil, or_false, false_or] at hx; subst hx; exact hq
    · simp only [h, List.mem_singleton, List.not_mem_nil, or_false, false_or] at hx; subst hx; exact hq
    · simp only [h, List.mem_singleton, List.not_mem_nil, or_false, false_or] at hx; subst hx; exact hq
    · obtain ⟨w1, w2⟩ := pieces_W h0 hq hi hj ci cj
      simp only [h, List.mem_singleton, List.not_mem_nil, or_false, false_or] at hx
      rcases hx with rfl | rfl
      exacts [w1, w2]
  cover p q hq := (polySplit h0).cover p q (Or.inl hq)
  front_side p q hq := (polySplit h0).front_side p q (Or.inl hq)
  back_side p q hq := (polySplit h0).back_side p q (Or.inl hq)
  own q hq := (polySplit h0).own q (Or.inl hq)
  one := (polySplit h0).one

end Verif.Csg
