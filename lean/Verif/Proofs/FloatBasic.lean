import Mathlib.Data.Int.Log
import Mathlib.Algebra.Order.Round
import Mathlib.Tactic.Linarith
import Mathlib.Tactic.Ring
import Mathlib.Tactic.FieldSimp
import Mathlib.Tactic.Positivity
import Mathlib.Tactic.NormNum
import Verif.Spec.Float
/- Floating point numbers and rounding to nearest: grids, errors and exact sums. -/
namespace Verif.Float

theorem two_pos' (e : ℤ) : (0 : ℚ) < 2 ^ e := zpow_pos (by norm_num) e

theorem Grid.neg {e : ℤ} {x : ℚ} (h : Grid e x) : Grid e (-x) := by
  obtain ⟨m, rfl⟩ := h; exact ⟨-m, by push_cast; ring⟩

theorem Grid.add {e : ℤ} {x y : ℚ} (h : Grid e x) (h' : Grid e y) : Grid e (x + y) := by
  obtain ⟨m, rfl⟩ := h; obtain ⟨n, rfl⟩ := h'; exact ⟨m + n, by push_cast; ring⟩

theorem Grid.sub {e : ℤ} {x y : ℚ} (h : Grid e x) (h' : Grid e y) : Grid e (x - y) := by
  obtain ⟨m, rfl⟩ := h; obtain ⟨n, rfl⟩ := h'; exact ⟨m - n, by push_cast; ring⟩

theorem Grid.mul {e f : ℤ} {x y : ℚ} (h : Grid e x) (h' : Grid f y) : Grid (e + f) (x * y) := by
  obtain ⟨m, rfl⟩ := h; obtain ⟨n, rfl⟩ := h'
  exact ⟨m * n, by rw [zpow_add₀ (by norm_num)]; push_cast; ring⟩

theorem Grid.zero (e : ℤ) : Grid e 0 := ⟨0, by simp⟩

theorem Grid.mono {e f : ℤ} {x : ℚ} (h : Grid e x) (hf : f ≤ e) : Grid f x := by
  obtain ⟨m, rfl⟩ := h
  refine ⟨m * 2 ^ (e - f).toNat, ?_⟩
  have : ((2 : ℚ) ^ e) = 2 ^ (e - f).toNat * 2 ^ f := by
    rw [← zpow_natCast, ← zpow_add₀ (by norm_num)]; congr 1; omega
  rw [this]; push_cast; ring

theorem Grid.pow {e f : ℤ} (h : f ≤ e) : Grid f (2 ^ e) := Grid.mono ⟨1, by simp⟩ h

/-- A multiple of `2 ^ e` smaller than `2 ^ e` is zero. -/
theorem Grid.eq_zero {e : ℤ} {x : ℚ} (h : Grid e x) (hx : |x| < 2 ^ e) : x = 0 := by
  obtain ⟨m, rfl⟩ := h
  rw [abs_mul, abs_of_pos (two_pos' e)] at hx
  have h1 : |(m : ℚ)| < 1 := by
    by_contra hc
    have := mul_le_mul_of_nonneg_right (not_lt.1 hc) (two_pos' e).le
    linarith
  have h2 : |m| < 1 := by exact_mod_cast h1
  have : m = 0 := Int.abs_lt_one_iff.1 h2
  simp [this]

theorem Grid.le_abs {e : ℤ} {x : ℚ} (h : Grid e x) (hx : x ≠ 0) : 2 ^ e ≤ |x| := by
  by_contra hc; exact hx (h.eq_zero (not_le.1 hc))

variable {p : ℕ}

theorem two_pow_p (p : ℕ) (e : ℤ) : (2 : ℚ) ^ ((p : ℤ) + e) = 2 ^ p * 2 ^ e := by
  rw [zpow_add₀ (by norm_num), zpow_natCast]

/-- A multiple of `2 ^ e` of size at most `2 ^ (p + e)` is a number. -/
theorem isFloat_of_grid (hp : 1 ≤ p) {e : ℤ} {x : ℚ} (h : Grid e x) (hx : |x| ≤ 2 ^ ((p : ℤ) + e)) : IsFloat p x := by
  obtain ⟨m, rfl⟩ := h
  rw [abs_mul, abs_of_pos (two_pos' e), two_pow_p] at hx
  have h1 : |(m : ℚ)| ≤ 2 ^ p := le_of_mul_le_mul_right hx (two_pos' e)
  have h2 : |m| ≤ 2 ^ p := by exact_mod_cast h1
  rcases lt_or_eq_of_le h2 with h3 | h3
  · exact ⟨m, e, h3, rfl⟩
  · have hlt : (1 : ℤ) < 2 ^ p := one_lt_pow₀ (by norm_num) (by omega)
    have e1 : (2 : ℚ) ^ (e + p) = 2 ^ p * 2 ^ e := by rw [zpow_add₀ (by norm_num), zpow_natCast]; ring
    rcases abs_eq (by positivity) |>.1 h3 with h4 | h4
    · refine ⟨1, e + p, by simpa using hlt, ?_⟩
      rw [e1, h4]; push_cast; ring
    · refine ⟨-1, e + p, by simpa using hlt, ?_⟩
      rw [e1, h4]; push_cast; ring

theorem IsFloat.zero : IsFloat p 0 := ⟨0, 0, by simp, by simp⟩

theorem IsFloat.neg {x : ℚ} (h : IsFloat p x) : IsFloat p (-x) := by
  obtain ⟨m, e, hm, rfl⟩ := h; exact ⟨-m, e, by rwa [abs_neg], by push_cast; ring⟩

theorem IsFloat.scale {x : ℚ} (h : IsFloat p x) (k : ℤ) : IsFloat p (x * 2 ^ k) := by
  obtain ⟨m, e, hm, rfl⟩ := h
  exact ⟨m, e + k, hm, by rw [zpow_add₀ (by norm_num)]; ring⟩

theorem IsFloat.pow (hp : 1 ≤ p) (k : ℤ) : IsFloat p (2 ^ k) :=
  ⟨1, k, by simpa using one_lt_pow₀ (by norm_num : (1 : ℤ) < 2) (by omega : p ≠ 0), by simp⟩

/-- The exponent of a number: the binade `2 ^ k ≤ |x| < 2 ^ (k + 1)`. -/
theorem exists_binade {x : ℚ} (hx : x ≠ 0) : ∃ k : ℤ, 2 ^ k ≤ |x| ∧ |x| < 2 ^ (k + 1) := by
  have hpos : 0 < |x| := abs_pos.2 hx
  exact ⟨Int.log 2 |x|, by simpa using Int.zpow_log_le_self (by norm_num : 1 < 2) hpos,
    by simpa using Int.lt_zpow_succ_log_self (by norm_num : 1 < 2) |x|⟩

/-- Canonical form: a number in `[2 ^ k, 2 ^ (k + 1))` is a multiple of `2 ^ (k + 1 - p)`. -/
theorem IsFloat.grid {x : ℚ} (h : IsFloat p x) {k : ℤ} (hk : 2 ^ k ≤ |x|) : Grid (k + 1 - p) x := by
  obtain ⟨m, e, hm, rfl⟩ := h
  rw [abs_mul, abs_of_pos (two_pos' e)] at hk
  have h1 : |(m : ℚ)| < 2 ^ p := by exact_mod_cast hm
  have h2 : (2 : ℚ) ^ k < 2 ^ ((p : ℤ) + e) := by
    rw [two_pow_p]
    exact lt_of_le_of_lt hk (mul_lt_mul_of_pos_right h1 (two_pos' e))
  have h3 : k < p + e := (zpow_lt_zpow_iff_right₀ (by norm_num)).1 h2
  exact Grid.mono ⟨m, rfl⟩ (by omega)

/-- Every number has a grid on which it has at most `p` bits. -/
theorem IsFloat.exists_grid {x : ℚ} (h : IsFloat p x) : ∃ e : ℤ, Grid e x ∧ |x| < 2 ^ ((p : ℤ) + e) := by
  obtain ⟨m, e, hm, rfl⟩ := h
  refine ⟨e, ⟨m, rfl⟩, ?_⟩
  rw [abs_mul, abs_of_pos (two_pos' e), two_pow_p]
  exact mul_lt_mul_of_pos_right (by exact_mod_cast hm) (two_pos' e)

variable {rnd : ℚ → ℚ}

namespace ToNearest

theorem of_float (hr : ToNearest p rnd) {x : ℚ} (h : IsFloat p x) : rnd x = x := by
  have := hr.nearest x x h
  rw [sub_self, abs_zero] at this
  exact sub_eq_zero.1 (abs_eq_zero.1 (le_antisymm this (abs_nonneg _)))

theorem zero (hr : ToNearest p rnd) : rnd 0 = 0 := hr.of_float .zero

/-- Rounding does not cross a number from below. -/
theorem le_of_le (hr : ToNearest p rnd) {x f : ℚ} (hf : IsFloat p f) (h : f ≤ x) : f ≤ rnd x := by
  by_contra hc
  have h1 := hr.nearest x f hf
  have h2 : rnd x < f := not_le.1 hc
  rw [abs_of_nonpos (by linarith), abs_of_nonpos (by linarith)] at h1
  linarith

theorem ge_of_ge (hr : ToNearest p rnd) {x f : ℚ} (hf : IsFloat p f) (h : x ≤ f) : rnd x ≤ f := by
  by_contra hc
  have h1 := hr.nearest x f hf
  have h2 : f < rnd x := not_le.1 hc
  rw [abs_of_nonneg (by linarith), abs_of_nonneg (by linarith)] at h1
  linarith

theorem le_abs (hr : ToNearest p rnd) {x f : ℚ} (hf : IsFloat p f) (hf0 : 0 ≤ f) (h : f ≤ |x|) : f ≤ |rnd x| := by
  rcases _root_.le_abs.1 h with h1 | h1
  · exact le_trans (hr.le_of_le hf h1) (le_abs_self _)
  · have := hr.ge_of_ge hf.neg (by linarith : x ≤ -f)
    exact _root_.le_abs.2 (Or.inr (by linarith))

theorem abs_le (hr : ToNearest p rnd) {x f : ℚ} (hf : IsFloat p f) (h : |x| ≤ f) : |rnd x| ≤ f := by
  have h' := _root_.abs_le.1 h
  exact _root_.abs_le.2 ⟨hr.le_of_le hf.neg h'.1, hr.ge_of_ge hf h'.2⟩

/-- A point of the grid `2 ^ e` nearest to `x`. -/
theorem exists_grid_near (e : ℤ) (x : ℚ) : ∃ g, Grid e g ∧ |g - x| ≤ 2 ^ e / 2 := by
  refine ⟨round (x / 2 ^ e) * 2 ^ e, ⟨_, rfl⟩, ?_⟩
  have h := abs_sub_round (x / 2 ^ e)
  have e1 : (round (x / 2 ^ e) : ℚ) * 2 ^ e - x = -((x / 2 ^ e - round (x / 2 ^ e)) * 2 ^ e) := by
    have := (two_pos' e).ne'
    field_simp; ring
  rw [e1, abs_neg, abs_mul, abs_of_pos (two_pos' e)]
  have := mul_le_mul_of_nonneg_right h (two_pos' e).le
  linarith

/-- Half a unit in the last place: with `|x| ≤ 2 ^ k`, the error is at most `2 ^ (k - p - 1)`. -/
theorem err_le (hr : ToNearest p rnd) (hp : 1 ≤ p) {x : ℚ} {k : ℤ} (hk : |x| ≤ 2 ^ k) : |rnd x - x| ≤ 2 ^ (k - p) / 2 := by
  obtain ⟨g, hg, hgx⟩ := exists_grid_near (k - p) x
  refine le_trans (hr.nearest x g ?_) hgx
  apply isFloat_of_grid hp hg
  have e1 : (p : ℤ) + (k - p) = k := by ring
  rw [e1]
  by_contra hc
  have hlt : 2 ^ k < |g| := not_le.1 hc
  -- the difference is a positive multiple of the grid
  have h1 : Grid (k - p) (|g| - 2 ^ k) := by
    refine Grid.sub ?_ (Grid.pow (by omega))
    rcases abs_choice g with h | h <;> rw [h]
    · exact hg
    · exact hg.neg
  have h2 := h1.le_abs (by linarith)
  rw [abs_of_pos (by linarith)] at h2
  have h3 : |g| ≤ |x| + |g - x| := by
    have := abs_add_le x (g - x); rwa [add_sub_cancel] at this
  have := two_pos' (k - p)
  linarith

/-- The relative error is at most `2 ^ (-p)`, of the exact result. -/
theorem rel (hr : ToNearest p rnd) (hp : 1 ≤ p) (x : ℚ) : |rnd x - x| ≤ 2 ^ (-(p : ℤ)) * |x| := by
  rcases eq_or_ne x 0 with rfl | hx
  · rw [hr.zero]; simp
  obtain ⟨k, h1, h2⟩ := exists_binade hx
  refine le_trans (hr.err_le hp h2.le) ?_
  have e1 : (2 : ℚ) ^ (k + 1 - p) / 2 = 2 ^ (-(p : ℤ)) * 2 ^ k := by
    rw [← zpow_add₀ (by norm_num), show k + 1 - (p : ℤ) = (-(p : ℤ) + k) + 1 by ring, zpow_add₀ (by norm_num) _ 1]; simp
  rw [e1]
  exact mul_le_mul_of_nonneg_left h1 (two_pos' _).le

/-- The relative error is at most `2 ^ (-p)`, of the rounded result. -/
theorem rel' (hr : ToNearest p rnd) (hp : 1 ≤ p) (x : ℚ) : |rnd x - x| ≤ 2 ^ (-(p : ℤ)) * |rnd x| := by
  rcases eq_or_ne x 0 with rfl | hx
  · rw [hr.zero]; simp
  obtain ⟨k, h1, h2⟩ := exists_binade hx
  refine le_trans (hr.err_le hp h2.le) ?_
  have e1 : (2 : ℚ) ^ (k + 1 - p) / 2 = 2 ^ (-(p : ℤ)) * 2 ^ k := by
    rw [← zpow_add₀ (by norm_num), show k + 1 - (p : ℤ) = (-(p : ℤ) + k) + 1 by ring, zpow_add₀ (by norm_num) _ 1]; simp
  rw [e1]
  exact mul_le_mul_of_nonneg_left (hr.le_abs (.pow hp k) (two_pos' k).le h1) (two_pos' _).le

theorem eps_lt (hp : 1 ≤ p) : (2 : ℚ) ^ (-(p : ℤ)) ≤ 1 / 2 := by
  have : (2 : ℚ) ^ (-(p : ℤ)) ≤ 2 ^ (-1 : ℤ) := zpow_le_zpow_right₀ (by norm_num) (by omega)
  simpa using this

theorem pos_iff (hr : ToNearest p rnd) (hp : 1 ≤ p) {x : ℚ} : 0 < rnd x ↔ 0 < x := by
  have h1 := hr.rel hp x
  have h2 := eps_lt hp
  constructor
  · intro h
    by_contra hc
    have := hr.ge_of_ge .zero (not_lt.1 hc)
    linarith
  · intro h
    rw [abs_of_pos h] at h1
    have h3 := (abs_le'.1 h1).2
    nlinarith

theorem neg_iff (hr : ToNearest p rnd) (hp : 1 ≤ p) {x : ℚ} : rnd x < 0 ↔ x < 0 := by
  have h1 := hr.rel hp x
  have h2 := eps_lt hp
  constructor
  · intro h
    by_contra hc
    have := hr.le_of_le .zero (not_lt.1 hc)
    linarith
  · intro h
    rw [abs_of_neg h] at h1
    have h3 := (abs_le'.1 h1).1
    nlinarith

theorem eq_zero_iff (hr : ToNearest p rnd) (hp : 1 ≤ p) {x : ℚ} : rnd x = 0 ↔ x = 0 := by
  constructor
  · intro h
    rcases lt_trichotomy x 0 with h1 | h1 | h1
    · have := (hr.neg_iff hp).2 h1; linarith
    · exact h1
    · have := (hr.pos_iff hp).2 h1; linarith
  · rintro rfl; exact hr.zero

/-- Rounding stays on every grid. -/
theorem grid (hr : ToNearest p rnd) (hp : 1 ≤ p) {e : ℤ} {x : ℚ} (h : Grid e x) : Grid e (rnd x) := by
  rcases le_or_gt |x| (2 ^ ((p : ℤ) + e)) with h1 | h1
  · rw [hr.of_float (isFloat_of_grid hp h h1)]; exact h
  · have h2 := hr.le_abs (.pow hp _) (two_pos' _).le h1.le
    exact ((hr.float x).grid h2).mono (by omega)

/-- The error of a sum of two numbers is a number. -/
theorem add_err (hr : ToNearest p rnd) (hp : 1 ≤ p) {a b : ℚ} (ha : IsFloat p a) (hb : IsFloat p b) : IsFloat p (rnd (a + b) - (a + b)) := by
  obtain ⟨ea, ga, la⟩ := ha.exists_grid
  obtain ⟨eb, gb, lb⟩ := hb.exists_grid
  rcases le_total ea eb with h | h
  · have g : Grid ea (a + b) := ga.add (gb.mono h)
    refine isFloat_of_grid hp ((hr.grid hp g).sub g) (le_trans (hr.nearest _ b hb) ?_)
    rw [show b - (a + b) = -a by ring, abs_neg]; exact la.le
  · have g : Grid eb (a + b) := (ga.mono h).add gb
    refine isFloat_of_grid hp ((hr.grid hp g).sub g) (le_trans (hr.nearest _ a ha) ?_)
    rw [show a - (a + b) = -b by ring, abs_neg]; exact lb.le

/-- The difference of the rounded sum and its larger term is a number. -/
theorem fast (hr : ToNearest p rnd) (hp : 1 ≤ p) {a b : ℚ} (ha : IsFloat p a) (hb : IsFloat p b) (hab : |b| ≤ |a|) :
    IsFloat p (rnd (a + b) - a) := by
  rcases eq_or_ne b 0 with rfl | hb0
  · rw [add_zero, hr.of_float ha, sub_self]; exact .zero
  obtain ⟨k, k1, k2⟩ := exists_binade hb0
  set e : ℤ := k + 1 - p with he
  have hk : k + 1 = p + e := by omega
  rw [hk] at k2
  have gb : Grid e b := hb.grid k1
  have ga : Grid e a := ha.grid (k1.trans hab)
  have g := ga.add gb
  rcases le_or_gt |a + b| (2 ^ ((p : ℤ) + e)) with h1 | h1
  · rw [hr.of_float (isFloat_of_grid hp g h1), add_sub_cancel_left]; exact hb
  have hx := hr.le_abs (.pow hp _) (two_pos' _).le h1.le
  have gx : Grid (e + 1) (rnd (a + b)) := ((hr.float _).grid hx).mono (by omega)
  rcases le_or_gt ((2 : ℚ) ^ ((p : ℤ) + e)) |a| with h2 | h2
  · -- `a` is on the coarser grid as well
    have ga' : Grid (e + 1) a := (ha.grid h2).mono (by omega)
    refine isFloat_of_grid hp (gx.sub ga') ?_
    have h3 := hr.nearest (a + b) a ha
    rw [show a - (a + b) = -b by ring, abs_neg] at h3
    have h4 : |rnd (a + b) - a| ≤ |rnd (a + b) - (a + b)| + |b| := by
      have := abs_add_le (rnd (a + b) - (a + b)) b
      rwa [show rnd (a + b) - (a + b) + b = rnd (a + b) - a by ring] at this
    have e2 : (2 : ℚ) ^ ((p : ℤ) + (e + 1)) = 2 * 2 ^ ((p : ℤ) + e) := by
      rw [← add_assoc, zpow_add₀ (by norm_num) _ 1]; ring
    rw [e2]; linarith
  · -- both are below `2 ^ (p + e)`
    refine isFloat_of_grid hp ((gx.mono (by omega)).sub ga) ?_
    have e2 : (2 : ℚ) ^ ((p : ℤ) + e + 1) = 2 * 2 ^ ((p : ℤ) + e) := by
      rw [zpow_add₀ (by norm_num) _ 1]; ring
    have h5 : |a + b| ≤ 2 ^ ((p : ℤ) + e + 1) := by
      rw [e2]; linarith [abs_add_le a b]
    have h6 := hr.err_le hp h5
    have e3 : (2 : ℚ) ^ ((p : ℤ) + e + 1 - p) / 2 = 2 ^ e := by
      rw [show (p : ℤ) + e + 1 - p = e + 1 by ring, zpow_add₀ (by norm_num) _ 1]; ring
    rw [e3] at h6
    have h4 : |rnd (a + b) - a| ≤ |rnd (a + b) - (a + b)| + |b| := by
      have := abs_add_le (rnd (a + b) - (a + b)) b
      rwa [show rnd (a + b) - (a + b) + b = rnd (a + b) - a by ring] at this
    -- `|b| < 2 ^ (p + e)` on the grid leaves room for one step
    have h7 : |b| + 2 ^ e ≤ 2 ^ ((p : ℤ) + e) := by
      have g7 : Grid e (2 ^ ((p : ℤ) + e) - |b|) := by
        refine Grid.sub (Grid.pow (by omega)) ?_
        rcases abs_choice b with h | h <;> rw [h]
        · exact gb
        · exact gb.neg
      have := g7.le_abs (by linarith)
      rw [abs_of_pos (by linarith)] at this
      linarith
    linarith

/-- Sterbenz: the difference of two numbers within a factor two of each other is a number. -/
theorem sterbenz (hp : 1 ≤ p) {a b : ℚ} (ha : IsFloat p a) (hb : IsFloat p b) (h : 2 * |a - b| ≤ |b|) : IsFloat p (a - b) := by
  rcases eq_or_ne b 0 with rfl | hb0
  · rw [sub_zero]; exact ha
  rcases eq_or_ne a 0 with rfl | ha0
  · rw [zero_sub]; exact hb.neg
  obtain ⟨kb, b1, b2⟩ := exists_binade hb0
  obtain ⟨ka, a1, a2⟩ := exists_binade ha0
  have gb := hb.grid b1
  have ga := ha.grid a1
  rcases le_total ka kb with hk | hk
  · refine isFloat_of_grid hp (ga.sub (gb.mono (by omega))) ?_
    rw [show (p : ℤ) + (ka + 1 - p) = ka + 1 by ring]
    have h1 : |b| ≤ |a| + |a - b| := by
      have := abs_add_le a (b - a); rw [add_sub_cancel, abs_sub_comm] at this; exact this
    linarith
  · refine isFloat_of_grid hp ((ga.mono (by omega)).sub gb) ?_
    rw [show (p : ℤ) + (kb + 1 - p) = kb + 1 by ring]
    have := abs_nonneg (a - b)
    linarith

end ToNearest
end Verif.Float
