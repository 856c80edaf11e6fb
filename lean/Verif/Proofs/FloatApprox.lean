import Verif.Model.Predicates3
import Verif.Proofs.FloatOrient
/-
Errors of sums and products in floating point, relative to the same sums and products of absolute values.
-/
namespace Verif.Float
open Verif.Pred
variable {p : ℕ} {rnd : ℚ → ℚ}

/-- Rounding to nearest does not change the order. -/
theorem ToNearest.mono (hr : ToNearest p rnd) {x y : ℚ} (h : x ≤ y) : rnd x ≤ rnd y := by
  rcases h.eq_or_lt with rfl | h
  · rfl
  by_contra hlt
  push Not at hlt
  have h1 := hr.nearest x (rnd y) (hr.float y)
  have h2 := hr.nearest y (rnd x) (hr.float x)
  rcases abs_cases (rnd x - x) with ⟨a, _⟩ | ⟨a, _⟩ <;> rcases abs_cases (rnd y - x) with ⟨b, _⟩ | ⟨b, _⟩ <;>
    rcases abs_cases (rnd y - y) with ⟨c, _⟩ | ⟨c, _⟩ <;> rcases abs_cases (rnd x - y) with ⟨d, _⟩ | ⟨d, _⟩ <;> linarith

/-- Two neighbours do not both have even significands. -/
theorem no_two_even (hp : 1 ≤ p) {f g x : ℚ} {m m' e e' : ℤ} (hm : |m| < 2 ^ p) (hm' : |m'| < 2 ^ p) (h2 : Even m) (h2' : Even m')
    (hf : f = m * 2 ^ e) (hg : g = m' * 2 ^ e') (hn : ∀ z, IsFloat p z → |f - x| ≤ |z - x|) (heq : |f - x| = |g - x|) : ¬ f < g := by
  intro hfg
  have hx : x = (f + g) / 2 := by
    rcases abs_cases (f - x) with ⟨a, _⟩ | ⟨a, _⟩ <;> rcases abs_cases (g - x) with ⟨b, _⟩ | ⟨b, _⟩ <;> linarith
  -- no number is strictly between the two
  have gap : ∀ z, IsFloat p z → f < z → g ≤ z := by
    intro z hz h
    by_contra hlt
    push Not at hlt
    have := hn z hz
    rw [hx] at this
    rcases abs_cases (f - (f + g) / 2) with ⟨a, _⟩ | ⟨a, _⟩ <;> rcases abs_cases (z - (f + g) / 2) with ⟨b, _⟩ | ⟨b, _⟩ <;> linarith
  have step : ∀ (n k : ℤ) (s : ℤ), |n| < 2 ^ p → |s| ≤ 1 → IsFloat p (n * 2 ^ k + s * 2 ^ k) := by
    intro n k s hn hs
    refine isFloat_of_grid hp (e := k) ⟨n + s, by push_cast; ring⟩ ?_
    rw [two_pow_p, ← add_mul, abs_mul, abs_of_pos (two_pos' k)]
    refine mul_le_mul_of_nonneg_right ?_ (two_pos' k).le
    have : |n + s| ≤ 2 ^ p := by have := abs_add_le n s; omega
    exact_mod_cast this
  have l1 : g - f ≤ 2 ^ e := by
    have h := gap (m * 2 ^ e + (1 : ℤ) * 2 ^ e) (step m e 1 hm (by norm_num)) (by rw [← hf]; have := two_pos' e; push_cast; linarith)
    rw [← hf] at h; push_cast at h; linarith
  have l2 : g - f ≤ 2 ^ e' := by
    by_contra hlt
    push Not at hlt
    have h := gap (m' * 2 ^ e' + (-1 : ℤ) * 2 ^ e') (step m' e' (-1) hm' (by norm_num)) (by rw [← hg]; push_cast; linarith)
    rw [← hg] at h; push_cast at h
    have := two_pos' e'
    linarith
  obtain ⟨c, hc⟩ := h2
  obtain ⟨c', hc'⟩ := h2'
  have gf : Grid (e + 1) f := ⟨c, by rw [hf, hc, pow_succ']; push_cast; ring⟩
  have gg : Grid (e' + 1) g := ⟨c', by rw [hg, hc', pow_succ']; push_cast; ring⟩
  have hE : g - f < 2 ^ (min e e' + 1) := by
    rw [pow_succ']
    have := two_pos' (min e e')
    rcases min_choice e e' with h | h <;> rw [h] at this ⊢ <;> linarith
  have := ((gg.mono (f := min e e' + 1) (by omega)).sub (gf.mono (f := min e e' + 1) (by omega))).eq_zero
    (by rw [abs_of_pos (by linarith)]; exact hE)
  linarith

/-- Rounding to even treats a number and its opposite alike. -/
theorem ToEven.neg (hr : ToEven p rnd) (hp : 1 ≤ p) (x : ℚ) : rnd (-x) = -rnd x := by
  by_contra hne
  have fx := hr.float x
  have fn := hr.float (-x)
  have s : ∀ z : ℚ, |-z - x| = |z - -x| := fun z => by rw [← abs_neg]; congr 1; ring
  have s' : ∀ z : ℚ, |-z - -x| = |z - x| := fun z => by rw [← abs_neg]; congr 1; ring
  have heq : |rnd x - x| = |-rnd (-x) - x| := by
    refine le_antisymm (hr.nearest x _ fn.neg) ?_
    rw [s, ← s' (rnd x)]
    exact hr.nearest (-x) _ fx.neg
  have hn1 : ∀ z, IsFloat p z → |rnd x - x| ≤ |z - x| := fun z hz => hr.nearest x z hz
  obtain ⟨m, e, _, m2, m3, m4⟩ := hr.ties x (-rnd (-x)) fn.neg (fun h => hne (by rw [← h, neg_neg])) heq.symm
  obtain ⟨n, d, _, n2, n3, n4⟩ := hr.ties (-x) (-rnd x) fx.neg (fun h => hne h.symm) (by rw [s', heq, s])
  have n4' : -rnd (-x) = ((-n : ℤ) : ℚ) * 2 ^ d := by rw [n4]; push_cast; ring
  rcases lt_or_gt_of_ne (show rnd x ≠ -rnd (-x) from fun h => hne (by rw [h, neg_neg])) with h | h
  · exact no_two_even hp m2 (by rwa [abs_neg]) m3 n3.neg m4 n4' hn1 heq h
  · exact no_two_even hp (by rwa [abs_neg]) m2 n3.neg m3 n4' m4 (fun z hz => heq ▸ hn1 z hz) heq.symm h

theorem ToEven.abs (hr : ToEven p rnd) (hp : 1 ≤ p) (x : ℚ) : |rnd x| = rnd |x| := by
  rcases le_total 0 x with h | h
  · rw [abs_of_nonneg h, abs_of_nonneg (hr.le_of_le .zero h)]
  · rw [abs_of_nonpos h, hr.neg hp, abs_of_nonpos (hr.ge_of_ge .zero h)]

/-- `x` stands for `X`, `ξ` for the same with absolute values: `x` is off by at most `k` roundings of `ξ`. -/
structure Approx (ε : ℚ) (k : ℕ) (X x ξ : ℚ) : Prop where
  le : |x| ≤ ξ
  err : |X - x| ≤ ((1 + ε) ^ k - 1) * ξ

namespace Approx
variable {ε : ℚ} {j k : ℕ} {X Y x y ξ η : ℚ}

theorem nonneg (h : Approx ε k X x ξ) : 0 ≤ ξ := (abs_nonneg _).trans h.le

theorem one_le (hε : 0 ≤ ε) (k : ℕ) : 1 ≤ (1 + ε) ^ k := one_le_pow₀ (by linarith)

theorem mono (hε : 0 ≤ ε) (h : Approx ε j X x ξ) (hjk : j ≤ k) : Approx ε k X x ξ :=
  ⟨h.le, h.err.trans (mul_le_mul_of_nonneg_right (by linarith [pow_le_pow_right₀ (show 1 ≤ 1 + ε by linarith) hjk]) h.nonneg)⟩

theorem add (h : Approx ε k X x ξ) (h' : Approx ε k Y y η) : Approx ε k (X + Y) (x + y) (ξ + η) := by
  refine ⟨(abs_add_le _ _).trans (add_le_add h.le h'.le), ?_⟩
  have := abs_add_le (X - x) (Y - y)
  rw [show X + Y - (x + y) = X - x + (Y - y) by ring, mul_add]
  linarith [h.err, h'.err]

theorem neg (h : Approx ε k X x ξ) : Approx ε k (-X) (-x) ξ :=
  ⟨by rw [abs_neg]; exact h.le, by rw [show -X - -x = -(X - x) by ring, abs_neg]; exact h.err⟩

theorem sub (h : Approx ε k X x ξ) (h' : Approx ε k Y y η) : Approx ε k (X - Y) (x - y) (ξ + η) := by
  rw [sub_eq_add_neg, sub_eq_add_neg]; exact h.add h'.neg

theorem abs_le (hε : 0 ≤ ε) (h : Approx ε k X x ξ) : |X| ≤ (1 + ε) ^ k * ξ := by
  have := abs_add_le (X - x) x
  rw [sub_add_cancel] at this
  have h1 := h.err
  have h2 := h.le
  nlinarith

theorem mul (hε : 0 ≤ ε) (h : Approx ε j X x ξ) (h' : Approx ε k Y y η) : Approx ε (j + k) (X * Y) (x * y) (ξ * η) := by
  refine ⟨by rw [abs_mul]; exact mul_le_mul h.le h'.le (abs_nonneg _) h.nonneg, ?_⟩
  rw [show X * Y - x * y = X * (Y - y) + (X - x) * y by ring]
  refine (abs_add_le _ _).trans ?_
  rw [abs_mul, abs_mul]
  have h1 := mul_le_mul (h.abs_le hε) h'.err (abs_nonneg _) (mul_nonneg (by linarith [one_le hε j]) h.nonneg)
  have h2 := mul_le_mul h.err h'.le (abs_nonneg _) (mul_nonneg (by linarith [one_le hε j]) h.nonneg)
  rw [pow_add]
  linarith

/-- Rounding, of the absolute values too. -/
theorem round (hr : ToEven p rnd) (hp : 1 ≤ p) (h : Approx (2 ^ (-(p : ℤ))) k X x ξ) :
    Approx (2 ^ (-(p : ℤ))) (k + 1) X (rnd x) (rnd ξ) := by
  set ε : ℚ := 2 ^ (-(p : ℤ)) with hε
  have hε0 : 0 ≤ ε := (two_pos' _).le
  have l1 : |rnd x| ≤ rnd ξ := by rw [hr.abs hp]; exact hr.mono h.le
  refine ⟨l1, ?_⟩
  have h1 : |rnd x - x| ≤ ε * |rnd x| := hr.rel' hp x
  have h2 : ξ ≤ (1 + ε) * rnd ξ := sum_le hr.toToNearest hp h.nonneg
  have h3 := abs_sub (X - x) (rnd x - x)
  rw [show X - x - (rnd x - x) = X - rnd x by ring] at h3
  have h4 := mul_le_mul_of_nonneg_left h2 (show 0 ≤ (1 + ε) ^ k - 1 by linarith [one_le hε0 k])
  have h5 := mul_le_mul_of_nonneg_left l1 hε0
  have h6 := h.err
  rw [pow_succ]
  nlinarith

theorem exact (hr : ToEven p rnd) (hp : 1 ≤ p) (x : ℚ) : Approx (2 ^ (-(p : ℤ))) 1 x (rnd x) |rnd x| := by
  refine ⟨le_refl _, ?_⟩
  rw [pow_one, add_sub_cancel_left, abs_sub_comm]
  exact hr.rel' hp x

theorem congr (h : Approx ε k X x ξ) (e : X = Y) : Approx ε k Y x ξ := e ▸ h

end Approx

/-- A test against an error bound. -/
theorem sameSign_of_filter (hr : ToNearest p rnd) (hp : 1 ≤ p) {D x c perm K : ℚ} (h0 : 0 ≤ perm) (hc : 0 ≤ c) (h : |D - x| ≤ K * perm)
    (hK : K ≤ (1 - 2 ^ (-(p : ℤ))) * c) (hd : rnd x > rnd (c * perm) ∨ -rnd x > rnd (c * perm)) : SameSign (rnd x) D := by
  have fe := hr.float (c * perm)
  have he := rnd_ge hr hp (mul_nonneg hc h0)
  have hx : rnd (c * perm) < |x| := by
    rcases hd with hd | hd
    · have : rnd (c * perm) < x := by
        by_contra hn; push Not at hn
        exact absurd (hr.ge_of_ge fe hn) (not_le.2 hd)
      exact this.trans_le (le_abs_self x)
    · have : x < -rnd (c * perm) := by
        by_contra hn; push Not at hn
        have := hr.le_of_le fe.neg hn
        linarith
      have := neg_le_abs x
      linarith
  have h2 := mul_le_mul_of_nonneg_right hK h0
  refine (SameSign.of_rnd hr hp x).trans (sameSign_of_close ?_)
  nlinarith

end Verif.Float
