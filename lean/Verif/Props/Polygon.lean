import Verif.Proofs.Polygon
import Verif.Proofs.Query
import Mathlib.Algebra.Order.Field.Rat
import Mathlib.Algebra.Order.Ring.Unbundled.Rat
import Mathlib.Tactic.NormNum
/- C31, C58, C59: points in polygons, on polygons, and within a PLC with holes. -/
namespace Verif.Geom
open Verif Verif.Mesh
section
variable {K : Type} [Field K] [LinearOrder K] [IsStrictOrderedRing K]

omit [IsStrictOrderedRing K] in
/-- The answer does not depend on the corner the list starts from. -/
theorem C31_start (p : V2 K) (vs : List (V2 K)) (n : Nat) : pointInPolygon p (vs.rotate n) = pointInPolygon p vs := pip_rotate p vs n

omit [IsStrictOrderedRing K] in
/-- Nor on the direction of the list. -/
theorem C31_direction (p : V2 K) (vs : List (V2 K)) : pointInPolygon p vs.reverse = pointInPolygon p vs := by
  rw [pip_parity, pip_parity, parity_perm (dirSides_reverse vs), parity_map]
  congr 1
  funext e
  exact toggles_symm p _ _

/-- Nor on the origin. -/
theorem C31_translate (p v : V2 K) (vs : List (V2 K)) : pointInPolygon (p + v) (vs.map (· + v)) = pointInPolygon p vs := by
  rw [pip_parity, pip_parity, dirSides_map, parity_map]
  congr 1
  funext e
  exact toggles_move p _ _ v

/-- For a convex polygon of any number of corners the answer is right strictly inside and strictly outside. -/
theorem C31_convex {vs : List (V2 K)} (hc : ConvexCCW vs) (p : V2 K) :
    (StrictlyIn vs p → pointInPolygon p vs = true) ∧ (StrictlyOut vs p → pointInPolygon p vs = false) := pip_convex hc p

/-- Also if it is listed clockwise. -/
theorem C31_convex_cw {vs : List (V2 K)} (hc : ConvexCCW vs.reverse) (p : V2 K) :
    (StrictlyIn vs.reverse p → pointInPolygon p vs = true) ∧ (StrictlyOut vs.reverse p → pointInPolygon p vs = false) := by
  rw [← C31_direction p vs]; exact pip_convex hc p

/-- Every triangle. -/
theorem C31_triangle {a b c : V2 K} (hpos : 0 < area2 a b c) (p : V2 K) :
    (0 < area2 a b p ∧ 0 < area2 b c p ∧ 0 < area2 c a p → pointInPolygon p [a, b, c] = true) ∧
    (area2 a b p < 0 ∨ area2 b c p < 0 ∨ area2 c a p < 0 → pointInPolygon p [a, b, c] = false) := by
  have hc : ConvexCCW [a, b, c] := by
    refine ⟨by simp, fun x y z h => ?_⟩
    have := h.eq_of_length (by simp)
    simp only [List.cons.injEq, and_true] at this
    rw [this.1, this.2.1, this.2.2]; exact hpos
  have hd : dirSides [a, b, c] = [(a, b), (b, c), (c, a)] := by simp [dirSides]
  obtain ⟨h1, h2⟩ := pip_convex hc p
  refine ⟨fun h => h1 ?_, fun h => h2 ?_⟩
  · unfold StrictlyIn
    rw [hd]
    simp only [List.mem_cons, List.not_mem_nil, or_false]
    rintro e (rfl | rfl | rfl)
    exacts [h.1, h.2.1, h.2.2]
  · unfold StrictlyOut
    rw [hd]
    rcases h with h | h | h
    exacts [⟨(a, b), by simp, h⟩, ⟨(b, c), by simp, h⟩, ⟨(c, a), by simp, h⟩]

/-- Every box, exactly: the lower and left sides belong to it, the upper and right sides do not. -/
theorem C31_box {lo hi : V2 K} (hx : lo.x < hi.x) (hy : lo.y < hi.y) (p : V2 K) :
    pointInPolygon p [lo, ⟨hi.x, lo.y⟩, hi, ⟨lo.x, hi.y⟩] = decide (lo.x ≤ p.x ∧ p.x < hi.x ∧ lo.y ≤ p.y ∧ p.y < hi.y) := by
  rw [pip_parity]
  have hd : dirSides [lo, ⟨hi.x, lo.y⟩, hi, ⟨lo.x, hi.y⟩] = [(lo, ⟨hi.x, lo.y⟩), (⟨hi.x, lo.y⟩, hi), (hi, ⟨lo.x, hi.y⟩), (⟨lo.x, hi.y⟩, lo)] := by simp [dirSides]
  rw [hd]
  simp only [parity, toggles, bne_self_eq_false, Bool.false_and, sub_self, zero_mul, zero_div, add_zero]
  by_cases h1 : p.y < lo.y
  · have h2 : p.y < hi.y := h1.trans hy
    simp [h1, h2]
  · by_cases h2 : p.y < hi.y
    · have h1' := not_lt.mp h1
      by_cases h3 : p.x < hi.x <;> by_cases h4 : p.x < lo.x
      · simp [h1, h2, h3, h4]
      · simp [h1, h2, h3, h4, h1', not_lt.mp h4]
      · exact absurd (h4.trans hx) h3
      · simp [h1, h2, h3, h4]
    · simp [h1, h2]

omit [IsStrictOrderedRing K] in
/-- Cutting any polygon along a chord: a point of the polygon is in exactly one of the two parts, and a point outside is in both or neither. -/
theorem C31_cut (p a b : V2 K) (X Y : List (V2 K)) :
    pointInPolygon p (a :: (X ++ b :: Y)) = (pointInPolygon p (a :: (X ++ [b])) != pointInPolygon p (b :: (Y ++ [a]))) := by
  simp only [pip_parity, dirSides_pairs]
  have e1 : a :: (X ++ b :: Y ++ [a]) = (a :: X ++ [b]) ++ (Y ++ [a]) := by simp
  have e2 : ∀ (q : List (V2 K)) (x : V2 K), q ≠ [] → ∃ t, pairs (q ++ [x]) = pairs q ++ [(t, x)] ∧ q.getLast? = some t := by
    intro q x hq
    rcases q.eq_nil_or_concat with h | ⟨q', t, h⟩
    · exact (hq h).elim
    · rw [List.concat_eq_append] at h
      refine ⟨t, ?_, by rw [h]; simp⟩
      rw [h]
      have := pairs_append t x [] q'
      simpa [pairs] using this
  have e3 : pairs (a :: (X ++ b :: Y ++ [a])) = pairs (a :: (X ++ [b])) ++ pairs (b :: (Y ++ [a])) := by
    cases Y with
    | nil =>
      have := pairs_append b a [] (a :: X)
      simpa [pairs] using this
    | cons y Y =>
      have := pairs_append b y (Y ++ [a]) (a :: X)
      simpa [pairs_cons] using this
  have e4 : pairs (a :: (X ++ [b] ++ [a])) = pairs (a :: (X ++ [b])) ++ [(b, a)] := by
    obtain ⟨t, h, h'⟩ := e2 (a :: (X ++ [b])) a (by simp)
    have : t = b := by
      rw [← List.cons_append, List.getLast?_concat] at h'
      exact (Option.some.inj h').symm
    rw [this] at h
    simpa using h
  have e5 : pairs (b :: (Y ++ [a] ++ [b])) = pairs (b :: (Y ++ [a])) ++ [(a, b)] := by
    obtain ⟨t, h, h'⟩ := e2 (b :: (Y ++ [a])) b (by simp)
    have : t = a := by
      rw [← List.cons_append, List.getLast?_concat] at h'
      exact (Option.some.inj h').symm
    rw [this] at h
    simpa using h
  rw [e3, e4, e5, parity_append, parity_append, parity_append]
  simp only [parity, Bool.bne_false]
  rw [toggles_symm p a b]
  cases toggles p b a <;> cases parity (fun e => toggles p e.1 e.2) (pairs (a :: (X ++ [b]))) <;> cases parity (fun e => toggles p e.1 e.2) (pairs (b :: (Y ++ [a]))) <;> rfl
end

/-- A pentagon: convex, with a point in and a point out. -/
def pentagonQ : List (V2 ℚ) := [⟨0, 0⟩, ⟨2, 0⟩, ⟨3, 2⟩, ⟨1, 3⟩, ⟨-1, 2⟩]
theorem pentagonQ_convex : ConvexCCW pentagonQ := by
  refine ⟨by decide, fun a b c h => ?_⟩
  have : ∀ l ∈ pentagonQ.sublists, ∀ a b c, l = [a, b, c] → 0 < area2 a b c := by
    have h' : ∀ l ∈ pentagonQ.sublists, (match l with | [a, b, c] => decide (0 < area2 a b c) | _ => true) = true := by decide +kernel
    rintro l hl a b c rfl
    simpa using h' _ hl
  exact this _ (List.mem_sublists.mpr h) a b c rfl
example : ConvexCCW pentagonQ ∧ StrictlyIn pentagonQ ⟨1, 1⟩ ∧ StrictlyOut pentagonQ ⟨3, 0⟩ ∧ pointInPolygon ⟨1, 1⟩ pentagonQ = true ∧ pointInPolygon ⟨3, 0⟩ pentagonQ = false := by
  refine ⟨pentagonQ_convex, ?_, ?_, by decide +kernel, by decide +kernel⟩
  · unfold StrictlyIn; decide +kernel
  · unfold StrictlyOut; exact ⟨(⟨2, 0⟩, ⟨3, 2⟩), by decide +kernel, by decide +kernel⟩
example : (0 : ℚ) < area2 ⟨0, 0⟩ ⟨1, 0⟩ ⟨0, 1⟩ := by norm_num [area2]
/-- A polygon that is not convex, cut in two. -/
example : pointInPolygon (⟨2, 1/2⟩ : V2 ℚ) [⟨0, 0⟩, ⟨2, 1⟩, ⟨4, 0⟩, ⟨2, 4⟩] = false ∧ pointInPolygon (⟨2, 2⟩ : V2 ℚ) [⟨0, 0⟩, ⟨2, 1⟩, ⟨4, 0⟩, ⟨2, 4⟩] = true := by decide +kernel

/-! ### On the boundary -/

theorem popLoop_spec (p first : V2 ℝ) : ∀ vs : List (V2 ℝ), vs ≠ [] → (popLoop p first vs = true ↔ ∃ e ∈ pairs (vs ++ [first]), onSide p e.1 e.2)
  | [], h => (h rfl).elim
  | [a], _ => by simp [popLoop, pairs]
  | a :: b :: vs, _ => by
    have ih := popLoop_spec p first (b :: vs) (by simp)
    simp only [popLoop, List.cons_append, pairs_cons, List.mem_cons, exists_eq_or_imp]
    by_cases h : onSide p a b
    · simp [h]
    · simp only [h, if_false, false_or]
      simpa using ih

theorem pop_spec (p : V2 ℝ) (vs : List (V2 ℝ)) : pointOnPolygon p vs = true ↔ ∃ e ∈ dirSides vs, onSide p e.1 e.2 := by
  cases vs with
  | nil => simp [pointOnPolygon, popLoop, dirSides]
  | cons v vs =>
    unfold pointOnPolygon
    rw [popLoop_spec p _ (v :: vs) (by simp), dirSides_pairs]
    rfl

theorem onSide_of_seg {a b p : V2 ℝ} (h : OnSeg a b p) : onSide p a b := by
  obtain ⟨t, h0, h1, rfl⟩ := h
  have conv : ∀ u v : ℝ, min u v ≤ u + t * (v - u) ∧ u + t * (v - u) ≤ max u v := by
    intro u v
    rcases le_total u v with h | h
    · rw [min_eq_left h, max_eq_right h]
      have := mul_nonneg h0 (sub_nonneg.mpr h)
      have := mul_le_mul_of_nonneg_right h1 (sub_nonneg.mpr h)
      constructor <;> linarith
    · rw [min_eq_right h, max_eq_left h]
      have := mul_nonneg h0 (sub_nonneg.mpr h)
      have := mul_le_mul_of_nonneg_right h1 (sub_nonneg.mpr h)
      constructor <;> linarith
  refine ⟨(conv a.x b.x).1, (conv a.x b.x).2, (conv a.y b.y).1, (conv a.y b.y).2, ?_⟩
  unfold collinear2
  by_cases hs : dot2 (b - a) (b - a) < 1 / 10 ^ 10
  · exact Or.inl hs
  right
  by_cases hc : dot2 (lerp2 a b t - a) (lerp2 a b t - a) < 1 / 10 ^ 10
  · exact Or.inl hc
  right
  have hD : (0 : ℝ) < dot2 (b - a) (b - a) := lt_of_lt_of_le (by norm_num) (not_lt.mp hs)
  have e : lerp2 a b t - a = V2.scale t (b - a) := by ext <;> simp [lerp2]
  have hc' : (0 : ℝ) < dot2 (lerp2 a b t - a) (lerp2 a b t - a) := lt_of_lt_of_le (by norm_num) (not_lt.mp hc)
  have e2 : dot2 (lerp2 a b t - a) (lerp2 a b t - a) = t ^ 2 * dot2 (b - a) (b - a) := by rw [e]; simp [dot2]; ring
  have ht : 0 < t := by
    rcases h0.lt_or_eq with h | h
    · exact h
    · rw [e2, ← h] at hc'; simp at hc'
  rw [e2, e, Real.sqrt_mul (by positivity), Real.sqrt_sq h0]
  set s := Real.sqrt (dot2 (b - a) (b - a)) with hs'
  have hs0 : 0 < s := Real.sqrt_pos.mpr hD
  have hss : s * s = dot2 (b - a) (b - a) := Real.mul_self_sqrt hD.le
  have : dot2 ((b - a).div s) ((V2.scale t (b - a)).div (t * s)) = 1 := by
    have : dot2 ((b - a).div s) ((V2.scale t (b - a)).div (t * s)) = dot2 (b - a) (b - a) / (s * s) := by
      simp only [dot2, V2.div_x, V2.div_y, V2.scale_x, V2.scale_y]
      field_simp
    rw [this, hss, div_self hD.ne']
  rw [this]
  norm_num

/-- Every point of a side is found, for every polygon. -/
theorem C58_complete {vs : List (V2 ℝ)} {p : V2 ℝ} (h : OnBoundary vs p) : pointOnPolygon p vs = true := by
  obtain ⟨e, he, hs⟩ := h
  exact (pop_spec p vs).mpr ⟨e, he, onSide_of_seg hs⟩

theorem near_of_onSide {a b p : V2 ℝ} (h : onSide p a b) : ∃ q, OnSeg a b q ∧ sq2 p q ≤ 2 / 10 ^ 10 * max 1 (sq2 a b) := by
  obtain ⟨hx1, hx2, hy1, hy2, hcol⟩ := h
  -- the coordinates of p - a have the sign of those of b - a and are at most as large
  have key : ∀ u v w : ℝ, min u v ≤ w → w ≤ max u v → 0 ≤ (w - u) * (v - u) ∧ (w - u) * (v - u) ≤ (v - u) ^ 2 ∧ (w - u) ^ 2 ≤ (v - u) ^ 2 := by
    intro u v w h1 h2
    rcases le_total u v with h | h
    · rw [min_eq_left h] at h1
      rw [max_eq_right h] at h2
      refine ⟨mul_nonneg (by linarith) (by linarith), ?_, ?_⟩ <;> nlinarith
    · rw [min_eq_right h] at h1
      rw [max_eq_left h] at h2
      refine ⟨mul_nonneg_of_nonpos_of_nonpos (by linarith) (by linarith), ?_, ?_⟩ <;> nlinarith
  obtain ⟨x1, x2, x3⟩ := key a.x b.x p.x hx1 hx2
  obtain ⟨y1, y2, y3⟩ := key a.y b.y p.y hy1 hy2
  have hpa : sq2 p a ≤ sq2 a b := by
    unfold sq2; nlinarith
  have hm1 : (1 : ℝ) ≤ max 1 (sq2 a b) := le_max_left _ _
  have hend : sq2 p a < 1 / 10 ^ 10 → ∃ q, OnSeg a b q ∧ sq2 p q ≤ 2 / 10 ^ 10 * max 1 (sq2 a b) := by
    intro h
    refine ⟨a, ⟨0, le_refl _, zero_le_one, by ext <;> simp [lerp2]⟩, ?_⟩
    have : (1 : ℝ) / 10 ^ 10 ≤ 2 / 10 ^ 10 * max 1 (sq2 a b) := by nlinarith
    linarith
  have eb : dot2 (b - a) (b - a) = sq2 a b := by simp [dot2, sq2]; ring
  have ep : dot2 (p - a) (p - a) = sq2 p a := by simp [dot2, sq2]; ring
  rcases hcol with h | h | h
  · rw [eb] at h
    exact hend (lt_of_le_of_lt hpa h)
  · rw [ep] at h
    exact hend h
  · by_cases hs : sq2 p a < 1 / 10 ^ 10
    · exact hend hs
    have hpos : 0 < sq2 p a := lt_of_lt_of_le (by norm_num) (not_lt.mp hs)
    have hD : 0 < sq2 a b := lt_of_lt_of_le hpos hpa
    rw [eb, ep] at h
    set d := dot2 (b - a) (p - a) with hd
    have hd0 : 0 ≤ d := by simp [hd, dot2]; nlinarith
    have hdD : d ≤ sq2 a b := by simp [hd, dot2, sq2]; nlinarith
    have s1 := Real.sqrt_pos.mpr hD
    have s2 := Real.sqrt_pos.mpr hpos
    have ed : dot2 ((b - a).div (Real.sqrt (sq2 a b))) ((p - a).div (Real.sqrt (sq2 p a))) = d / (Real.sqrt (sq2 a b) * Real.sqrt (sq2 p a)) := by
      simp only [hd, dot2, V2.div_x, V2.div_y]; field_simp
    rw [ed] at h
    set c := d / (Real.sqrt (sq2 a b) * Real.sqrt (sq2 p a)) with hc
    have hc0 : 0 ≤ c := div_nonneg hd0 (by positivity)
    rw [abs_of_nonneg hc0] at h
    have hc2 : c ^ 2 * (sq2 a b * sq2 p a) = d ^ 2 := by
      have : sq2 a b * sq2 p a = (Real.sqrt (sq2 a b) * Real.sqrt (sq2 p a)) ^ 2 := by rw [mul_pow, Real.sq_sqrt hD.le, Real.sq_sqrt hpos.le]
      rw [this, ← mul_pow, hc, div_mul_cancel₀ _ (by positivity)]
    have hc1 : 1 - 1 / 10 ^ 10 < c := by have := (abs_lt.mp h).1; linarith
    have hcc : 1 - c ^ 2 ≤ 2 / 10 ^ 10 := by
      have : (1 - (1 : ℝ) / 10 ^ 10) ^ 2 ≤ c ^ 2 := by
        apply pow_le_pow_left₀ _ hc1.le
        norm_num
      have e : (1 - (1 : ℝ) / 10 ^ 10) ^ 2 = 1 - 2 / 10 ^ 10 + (1 / 10 ^ 10) ^ 2 := by ring
      have : (0 : ℝ) ≤ (1 / 10 ^ 10) ^ 2 := by positivity
      linarith
    refine ⟨lerp2 a b (d / sq2 a b), ⟨_, div_nonneg hd0 hD.le, (div_le_one hD).mpr hdD, rfl⟩, ?_⟩
    have hq : sq2 p (lerp2 a b (d / sq2 a b)) = sq2 p a - d ^ 2 / sq2 a b := by
      have hgen : ∀ t : ℝ, sq2 p (lerp2 a b t) = sq2 p a - 2 * t * d + t ^ 2 * sq2 a b := by
        intro t; simp only [hd, sq2, lerp2, dot2, V2.sub_x, V2.sub_y]; ring
      rw [hgen]; field_simp; ring
    rw [hq, ← hc2]
    have : sq2 p a - c ^ 2 * (sq2 a b * sq2 p a) / sq2 a b = sq2 p a * (1 - c ^ 2) := by field_simp
    rw [this]
    have h1 : sq2 p a * (1 - c ^ 2) ≤ sq2 p a * (2 / 10 ^ 10) := mul_le_mul_of_nonneg_left hcc hpos.le
    have h2 : sq2 p a ≤ max 1 (sq2 a b) := hpa.trans (le_max_right _ _)
    nlinarith

/-- Only points close to a side are found: within about 1.5e-5 times its length (or 1.5e-5). -/
theorem C58_sound_partial {vs : List (V2 ℝ)} {p : V2 ℝ} (h : pointOnPolygon p vs = true) :
    ∃ e ∈ dirSides vs, ∃ q, OnSeg e.1 e.2 q ∧ sq2 p q ≤ 2 / 10 ^ 10 * max 1 (sq2 e.1 e.2) := by
  obtain ⟨e, he, hs⟩ := (pop_spec p vs).mp h
  exact ⟨e, he, near_of_onSide hs⟩

/-- The points found are not only those of the boundary: in the box of every slanted side there are others. -/
theorem C58_near_fails {vs : List (V2 ℝ)} {a b : V2 ℝ} (h : (a, b) ∈ dirSides vs) (hx : a.x ≠ b.x) (hy : a.y ≠ b.y) :
    ∃ p, pointOnPolygon p vs = true ∧ area2 a b p ≠ 0 := by
  -- a point next to `a` on the horizontal through `a`
  set m := min (|b.x - a.x|) (1 / 10 ^ 6) with hm
  have hm0 : 0 < m := lt_min (abs_pos.mpr (sub_ne_zero.mpr (Ne.symm hx))) (by norm_num)
  have hm1 : m ≤ 1 / 10 ^ 6 := min_le_right _ _
  have hm2 : m ≤ |b.x - a.x| := min_le_left _ _
  obtain ⟨x, hx1, hx2, hx3, hx4⟩ : ∃ x, min a.x b.x ≤ x ∧ x ≤ max a.x b.x ∧ x ≠ a.x ∧ (x - a.x) ^ 2 = m ^ 2 := by
    rcases le_total a.x b.x with h | h
    · rw [abs_of_nonneg (by linarith)] at hm2
      exact ⟨a.x + m, by rw [min_eq_left h]; linarith, by rw [max_eq_right h]; linarith, by linarith, by ring⟩
    · rw [abs_of_nonpos (by linarith)] at hm2
      exact ⟨a.x - m, by rw [min_eq_right h]; linarith, by rw [max_eq_left h]; linarith, by linarith, by ring⟩
  refine ⟨⟨x, a.y⟩, (pop_spec _ vs).mpr ⟨(a, b), h, hx1, hx2, min_le_left _ _, le_max_left _ _, Or.inr (Or.inl ?_)⟩, ?_⟩
  · have : dot2 ((⟨x, a.y⟩ : V2 ℝ) - a) ((⟨x, a.y⟩ : V2 ℝ) - a) = m ^ 2 := by rw [← hx4]; simp [dot2]; ring
    rw [this]
    have : m ^ 2 ≤ (1 / 10 ^ 6) ^ 2 := pow_le_pow_left₀ hm0.le hm1 2
    have : ((1 : ℝ) / 10 ^ 6) ^ 2 < 1 / 10 ^ 10 := by norm_num
    linarith
  · have : area2 a b ⟨x, a.y⟩ = -((b.y - a.y) * (x - a.x)) := by unfold area2; ring
    rw [this]
    exact neg_ne_zero.mpr (mul_ne_zero (sub_ne_zero.mpr (Ne.symm hy)) (sub_ne_zero.mpr hx3))

example : OnBoundary [(⟨0, 0⟩ : V2 ℝ), ⟨2, 0⟩, ⟨0, 2⟩] ⟨1, 1⟩ ∧ ((⟨2, 0⟩ : V2 ℝ), (⟨0, 2⟩ : V2 ℝ)) ∈ dirSides [(⟨0, 0⟩ : V2 ℝ), ⟨2, 0⟩, ⟨0, 2⟩] := by
  have hm : ((⟨2, 0⟩ : V2 ℝ), (⟨0, 2⟩ : V2 ℝ)) ∈ dirSides [(⟨0, 0⟩ : V2 ℝ), ⟨2, 0⟩, ⟨0, 2⟩] := by simp [dirSides]
  exact ⟨⟨_, hm, 1 / 2, by norm_num, by norm_num, by simp only [lerp2]; norm_num⟩, hm⟩

/-! ### A boundary with holes -/

theorem pointsAt_ok {verts : List ℝ} {i n : Nat} (h : 2 * (i + n) ≤ verts.length) : pointsAt verts i n = .ok (corners verts i n) := by
  unfold pointsAt corners
  have : ∀ l : List Nat, (∀ k ∈ l, k < n) → l.mapM (fun k => rdV2 verts (i + k)) = Res.ok (l.map fun k => vtx verts ((i + k : Nat) : Int)) := by
    intro l
    induction l with
    | nil => intro _; rfl
    | cons k l ih =>
      intro hl
      have hk := hl k (by simp)
      rw [List.mapM_cons, ih (fun x hx => hl x (by simp [hx]))]
      have : rdV2 verts (i + k) = .ok (vtx verts ((i + k : Nat) : Int)) := by
        unfold rdV2
        rw [rd_getD (by omega) 0, rd_getD (by omega) 0]
        rfl
      rw [this]
      rfl
  exact this _ (fun k hk => List.mem_range.mp hk)

theorem withinBoundary_ok {verts : List ℝ} {i n : Nat} (hn : 0 < n) (h : 2 * (i + n) ≤ verts.length) (p : V2 ℝ) :
    withinBoundary verts p (loopFacets i n) = .ok (if pointOnPolygon p (corners verts i n) then 2 else if pointInPolygon p (corners verts i n) then 1 else 0) := by
  unfold withinBoundary
  obtain ⟨m, rfl⟩ : ∃ m, n = m + 1 := ⟨n - 1, by omega⟩
  have h0 : rd (loopFacets i (m + 1)) 0 = .ok [((i + 0 : Nat) : Int), ((i + (0 + 1) % (m + 1) : Nat) : Int)] := by
    unfold loopFacets
    rw [List.range_succ_eq_map]
    rfl
  have hl : (loopFacets i (m + 1)).length = m + 1 := by simp [loopFacets]
  rw [h0, Res.ok_bind]
  have h1 : rd [((i + 0 : Nat) : Int), ((i + (0 + 1) % (m + 1) : Nat) : Int)] 0 = .ok (i : Int) := rfl
  rw [h1, Res.ok_bind]
  rw [if_neg (by omega), hl, Int.toNat_natCast, pointsAt_ok h]
  rfl

theorem withinHoles_ok {verts : List ℝ} (p : V2 ℝ) : ∀ {holes : List (Nat × Nat)}, (∀ l ∈ holes, 0 < l.2 ∧ 2 * (l.1 + l.2) ≤ verts.length) →
    ∃ b, withinHoles verts p (holes.map fun h => loopFacets h.1 h.2) = .ok b ∧
      (b = true ↔ ∃ l ∈ holes, pointOnPolygon p (corners verts l.1 l.2) = false ∧ pointInPolygon p (corners verts l.1 l.2) = true)
  | [], _ => ⟨false, rfl, by simp⟩
  | l :: ls, h => by
    obtain ⟨b, hb, hi⟩ := withinHoles_ok p (holes := ls) (fun x hx => h x (by simp [hx]))
    have hl := h l (by simp)
    simp only [List.map_cons, withinHoles]
    rw [withinBoundary_ok hl.1 hl.2, Res.ok_bind]
    by_cases h1 : pointOnPolygon p (corners verts l.1 l.2) = true
    · refine ⟨b, by simp [h1, hb], ?_⟩
      rw [hi]; simp [h1]
    · by_cases h2 : pointInPolygon p (corners verts l.1 l.2) = true
      · exact ⟨true, by simp [h1, h2], by simp [h1, h2]⟩
      · refine ⟨b, by simp [h1, h2, hb], ?_⟩
        rw [hi]; simp [h2]

theorem within_ok {verts : List ℝ} {plc : PLC} {outer : Nat × Nat} {holes : List (Nat × Nat)} (hp : LoopPLC verts plc outer holes) (p : V2 ℝ) :
    ∃ b, within verts p plc = .ok b ∧ (b = true ↔
      (pointOnPolygon p (corners verts outer.1 outer.2) = true ∨ pointInPolygon p (corners verts outer.1 outer.2) = true) ∧
      ∀ l ∈ holes, pointOnPolygon p (corners verts l.1 l.2) = true ∨ pointInPolygon p (corners verts l.1 l.2) = false) := by
  obtain ⟨b, hb, hi⟩ := withinHoles_ok (verts := verts) p (holes := holes) (fun l hl => hp.fits l (by simp [hl]))
  have ho := hp.fits outer (by simp)
  refine ⟨_, by
    unfold within
    rw [hp.facets_eq, hp.holes_eq, withinBoundary_ok ho.1 ho.2, Res.ok_bind, hb, Res.ok_bind]
    rfl, ?_⟩
  have hb' : b = false ↔ ∀ l ∈ holes, pointOnPolygon p (corners verts l.1 l.2) = true ∨ pointInPolygon p (corners verts l.1 l.2) = false := by
    rw [← Bool.not_eq_true, hi]
    push_neg
    refine forall₂_congr fun l hl => ?_
    cases pointOnPolygon p (corners verts l.1 l.2) <;> cases pointInPolygon p (corners verts l.1 l.2) <;> simp
  rw [Bool.and_eq_true, Bool.not_eq_true', hb']
  refine and_congr_left fun _ => ?_
  cases pointOnPolygon p (corners verts outer.1 outer.2) <;> cases pointInPolygon p (corners verts outer.1 outer.2) <;> simp

theorem clear_off {vs : List (V2 ℝ)} {p : V2 ℝ} (h : ClearOf vs p) : pointOnPolygon p vs = false := by
  rw [← Bool.not_eq_true]
  intro ht
  obtain ⟨e, he, q, hq, hle⟩ := C58_sound_partial ht
  exact absurd (h e he q hq) (not_lt.mpr hle)

/-- A convex boundary with any number of convex holes. Inside or on the boundary and outside or on every hole: within. Outside the boundary or inside a hole, by more than
the tolerance: not within. -/
theorem C59_within_partial {verts : List ℝ} {plc : PLC} {outer : Nat × Nat} {holes : List (Nat × Nat)} (hp : LoopPLC verts plc outer holes)
    (hc : ∀ l ∈ outer :: holes, ConvexCCW (corners verts l.1 l.2)) (p : V2 ℝ) :
    ((StrictlyIn (corners verts outer.1 outer.2) p ∨ OnBoundary (corners verts outer.1 outer.2) p) →
      (∀ l ∈ holes, StrictlyOut (corners verts l.1 l.2) p ∨ OnBoundary (corners verts l.1 l.2) p) → within verts p plc = .ok true) ∧
    (StrictlyOut (corners verts outer.1 outer.2) p ∧ ClearOf (corners verts outer.1 outer.2) p ∨
      (∃ l ∈ holes, StrictlyIn (corners verts l.1 l.2) p ∧ ClearOf (corners verts l.1 l.2) p) → within verts p plc = .ok false) := by
  obtain ⟨b, hb, hi⟩ := within_ok hp p
  rw [hb]
  refine ⟨fun h1 h2 => ?_, fun h => ?_⟩
  · have : b = true := hi.mpr ⟨?_, fun l hl => ?_⟩
    · rw [this]
    · rcases h1 with h | h
      · exact Or.inr ((pip_convex (hc outer (by simp)) p).1 h)
      · exact Or.inl (C58_complete h)
    · rcases h2 l hl with h | h
      · exact Or.inr ((pip_convex (hc l (by simp [hl])) p).2 h)
      · exact Or.inl (C58_complete h)
  · have : b = false := by
      rw [← Bool.not_eq_true, hi]
      rintro ⟨h1, h2⟩
      rcases h with ⟨ho, hcl⟩ | ⟨l, hl, hin, hcl⟩
      · rw [clear_off hcl, (pip_convex (hc outer (by simp)) p).2 ho] at h1
        simp at h1
      · have := h2 l hl
        rw [clear_off hcl, (pip_convex (hc l (by simp [hl])) p).1 hin] at this
        simp at this
    rw [this]

theorem pointsAt_ub {verts : List ℝ} {i n : Nat} (h : verts.length < 2 * (i + n)) (hn : 0 < n) : pointsAt verts i n = .ub := by
  unfold pointsAt
  have : ∀ l : List Nat, (∃ k ∈ l, verts.length < 2 * (i + k) + 2) → l.mapM (fun k => rdV2 verts (i + k)) = Res.ub := by
    intro l
    induction l with
    | nil => rintro ⟨k, hk, _⟩; simp at hk
    | cons k l ih =>
      rintro ⟨k', hk', hlt⟩
      rw [List.mapM_cons]
      by_cases hk : verts.length < 2 * (i + k) + 2
      · have : rdV2 verts (i + k) = .ub := by
          unfold rdV2
          by_cases h0 : 2 * (i + k) < verts.length
          · rw [rd_getD h0 0, Res.ok_bind, rd_ge (by omega)]; rfl
          · rw [rd_ge (by omega)]; rfl
        rw [this]; rfl
      · have : k' ∈ l := by
          rcases List.mem_cons.mp hk' with rfl | h
          · exact (hk hlt).elim
          · exact h
        rw [ih ⟨k', this, hlt⟩]
        have : rdV2 verts (i + k) = .ok (vtx verts ((i + k : Nat) : Int)) := by
          unfold rdV2
          rw [rd_getD (by omega) 0, rd_getD (by omega) 0]
          rfl
        rw [this]; rfl
  exact this _ ⟨n - 1, List.mem_range.mpr (by omega), by omega⟩

/-- The facets are not looked at beyond the first id: any list of as many facets with the same first id gets the same answer, whatever polygon it describes. -/
theorem C59_facets_ignored {verts : List ℝ} {p : V2 ℝ} {i : Int} {f g : List Int} {fs gs : List (List Int)} (h : fs.length = gs.length) :
    withinBoundary verts p ((i :: f) :: fs) = withinBoundary verts p ((i :: g) :: gs) := by
  unfold withinBoundary
  have e1 : rd ((i :: f) :: fs) 0 = .ok (i :: f) := rfl
  have e2 : rd ((i :: g) :: gs) 0 = .ok (i :: g) := rfl
  have e3 : rd (i :: f) 0 = .ok i := rfl
  have e4 : rd (i :: g) 0 = .ok i := rfl
  rw [e1, e2, Res.ok_bind, Res.ok_bind, e3, e4, Res.ok_bind, Res.ok_bind, List.length_cons, List.length_cons, h]

/-- A boundary that uses all the vertices but whose first facet does not start at vertex 0, such as a box whose facets are listed from vertex 1 on, is read past the end. -/
theorem C59_start_fails {verts : List ℝ} {plc : PLC} {i : Int} {f : List Int} {fs : List (List Int)} (p : V2 ℝ) (hf : plc.facets = (i :: f) :: fs) (hi : 0 < i)
    (hl : verts.length = 2 * plc.facets.length) : within verts p plc = .ub := by
  unfold within
  have : withinBoundary verts p plc.facets = .ub := by
    unfold withinBoundary
    have e1 : rd plc.facets 0 = .ok (i :: f) := by rw [hf]; rfl
    have e2 : rd (i :: f) 0 = .ok i := rfl
    rw [e1, Res.ok_bind, e2, Res.ok_bind, if_neg (by omega), pointsAt_ub (by rw [hl]; omega) (by rw [hf]; simp)]
    rfl
  rw [this]; rfl

/-- A square with a triangular hole, and a box listed from vertex 1. -/
example : LoopPLC [0, 0, 4, 0, 4, 4, 0, 4, 1, 1, 2, 1, 1, 2] ⟨[[0, 1], [1, 2], [2, 3], [3, 0]], [[[4, 5], [5, 6], [6, 4]]]⟩ (0, 4) [(4, 3)] :=
  ⟨by decide, by decide, by simp⟩
def squareHoleR : List ℝ := [0, 0, 4, 0, 4, 4, 0, 4, 1, 1, 2, 1, 1, 2]
theorem squareHoleR_corners : corners squareHoleR 0 4 = [⟨0, 0⟩, ⟨4, 0⟩, ⟨4, 4⟩, ⟨0, 4⟩] ∧ corners squareHoleR 4 3 = [⟨1, 1⟩, ⟨2, 1⟩, ⟨1, 2⟩] := ⟨rfl, rfl⟩
example : ∀ l ∈ [(0, 4), (4, 3)], ConvexCCW (corners squareHoleR l.1 l.2) := by
  intro l hl
  simp only [List.mem_cons, List.not_mem_nil, or_false] at hl
  rcases hl with rfl | rfl
  · rw [squareHoleR_corners.1]
    refine ⟨by simp, fun a b c h => ?_⟩
    have := List.mem_sublists'.mpr h
    simp at this
    rcases this with ⟨rfl, rfl, rfl⟩ | ⟨rfl, rfl, rfl⟩ | ⟨rfl, rfl, rfl⟩ | ⟨rfl, rfl, rfl⟩ <;> norm_num [area2]
  · rw [squareHoleR_corners.2]
    refine ⟨by simp, fun a b c h => ?_⟩
    have := List.mem_sublists'.mpr h
    simp at this
    rcases this with ⟨rfl, rfl, rfl⟩
    norm_num [area2]
example : StrictlyOut (corners squareHoleR 4 3) ⟨3, 3⟩ ∧ StrictlyIn (corners squareHoleR 0 4) ⟨3, 3⟩ := by
  rw [squareHoleR_corners.1, squareHoleR_corners.2]
  refine ⟨⟨(⟨2, 1⟩, ⟨1, 2⟩), by simp [dirSides], by norm_num [area2]⟩, ?_⟩
  intro e he
  simp [dirSides] at he
  rcases he with rfl | rfl | rfl | rfl <;> norm_num [area2]
example (p : V2 ℝ) : within [0, 0, 1, 0, 1, 1, 0, 1] p ⟨[[1, 2], [2, 3], [3, 0], [0, 1]], []⟩ = .ub := C59_start_fails p rfl (by decide) (by simp)

end Verif.Geom
