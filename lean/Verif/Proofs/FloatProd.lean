import Verif.Proofs.FloatSum
/- `Split` and `Two_Product`: the error of a rounded product, exactly. -/
namespace Verif.Float
open Verif.Pred
variable {p : ℕ} {rnd : ℚ → ℚ}

theorem pow_le {a b : ℤ} (h : a ≤ b) : (2 : ℚ) ^ a ≤ 2 ^ b := zpow_le_zpow_right₀ (by norm_num) h

theorem pow_succ' (a : ℤ) : (2 : ℚ) ^ (a + 1) = 2 * 2 ^ a := by rw [zpow_add₀ (by norm_num)]; ring

theorem Grid.abs {e : ℤ} {x : ℚ} (h : Grid e x) : Grid e |x| := by
  rcases abs_choice x with h' | h' <;> rw [h']
  · exact h
  · exact h.neg

/-- On a grid, below a bound that is on the grid leaves a whole step. -/
theorem Grid.room {e : ℤ} {x y : ℚ} (hx : Grid e x) (hy : Grid e y) (h : x < y) : x + 2 ^ e ≤ y := by
  have := (hy.sub hx).le_abs (by linarith)
  rw [abs_of_pos (by linarith)] at this
  linarith

/-- What `Split` gives for a number with last place `2 ^ u`, cut at the place `2 ^ (u + s)`. -/
structure Halves (p : ℕ) (s u : ℤ) (a hi lo : ℚ) : Prop where
  sum : hi + lo = a
  hiGrid : Grid (u + s) hi
  hiLe : |hi| ≤ 2 ^ (u + p)
  loGrid : Grid u lo
  loLe : |lo| ≤ 2 ^ (u + s - 1)

theorem split_spec (hr : ToNearest p rnd) {st : Statics} {s : ℕ} (hs1 : 1 ≤ s) (hs2 : s + 1 ≤ p) (hst : st.splitter = 2 ^ s + 1)
    {a : ℚ} (ha : IsFloat p a) {k : ℤ} (k1 : 2 ^ k ≤ |a|) (k2 : |a| < 2 ^ (k + 1)) :
    Halves p s (k + 1 - p) a (split rnd st a).1 (split rnd st a).2 := by
  have hp1 : 1 ≤ p := by omega
  set u : ℤ := k + 1 - p with hu
  have hk : k + 1 = u + p := by omega
  have hk' : k = u + p - 1 := by omega
  have ga : Grid u a := ha.grid k1
  rw [hk] at k2
  have P2 : ∀ e : ℤ, (2 : ℚ) ^ (e + s) = 2 ^ s * 2 ^ e := fun e => by rw [zpow_add₀ (by norm_num), zpow_natCast]; ring
  simp only [split, hst]
  set c := rnd ((2 ^ s + 1) * a) with hc
  set abig := rnd (c - a) with hbig
  have hS : (2 : ℚ) ≤ 2 ^ s := by simpa using pow_le_pow_right₀ (by norm_num : (1 : ℚ) ≤ 2) hs1
  have hA := abs_nonneg a
  have habs : |(2 ^ s + 1) * a| = (2 ^ s + 1) * |a| := by rw [abs_mul, abs_of_pos (by linarith)]
  -- the size of `c`
  have hroom : |a| + 2 ^ u ≤ 2 ^ (u + p) := ga.abs.room (Grid.pow (by omega)) k2
  have e1 : (2 : ℚ) ^ (u + p + s) = 2 ^ s * 2 ^ (u + p) := P2 _
  have hU := two_pos' u
  have hcle : |(2 ^ s + 1) * a| ≤ 2 ^ (u + p + s + 1) := by
    rw [habs, pow_succ', e1]
    nlinarith [two_pos' (u + p)]
  have herrc : |c - (2 ^ s + 1) * a| ≤ 2 ^ (u + s) := by
    have := hr.err_le hp1 hcle
    rw [show u + p + s + 1 - (p : ℤ) = u + s + 1 by ring, pow_succ'] at this
    linarith
  have hcge : (2 : ℚ) ^ (k + s) ≤ |c| := by
    refine hr.le_abs (.pow hp1 _) (two_pos' _).le ?_
    rw [habs, P2]
    nlinarith [two_pos' k]
  have gc : Grid (u + s) c := ((hr.float _).grid hcge).mono (by omega)
  -- `c - a`
  have hca : |c - a - 2 ^ s * a| ≤ 2 ^ (u + s) := by
    rwa [show c - a - 2 ^ s * a = c - (2 ^ s + 1) * a by ring]
  have habs2 : |(2 : ℚ) ^ s * a| = 2 ^ s * |a| := by rw [abs_mul, abs_of_pos (by positivity)]
  have hle2 : |c - a| ≤ 2 ^ (u + p + s) := by
    have := abs_add_le (c - a - 2 ^ s * a) (2 ^ s * a)
    rw [sub_add_cancel, habs2] at this
    rw [e1]
    rw [P2] at hca
    nlinarith
  have hge2 : (2 : ℚ) ^ (k + s) ≤ |c - a| := by
    rcases eq_or_lt_of_le k1 with h | h
    · -- `a` is a power of two, `c` is exact
      have hf : IsFloat p ((2 ^ s + 1) * a) := by
        have g : Grid (k : ℤ) ((2 ^ s + 1) * a) := by
          have g0 : Grid k a := by
            rcases abs_choice a with h' | h' <;> rw [h'] at h
            · rw [← h]; exact Grid.pow le_rfl
            · have := (Grid.pow (le_refl k)).neg; rw [h, neg_neg] at this; exact this
          obtain ⟨m, rfl⟩ := g0
          exact ⟨(2 ^ s + 1) * m, by push_cast; ring⟩
        refine isFloat_of_grid hp1 g ?_
        rw [habs, ← h]
        have : (2 : ℚ) ^ ((p : ℤ) + k) = 2 ^ p * 2 ^ k := two_pow_p p k
        rw [this]
        refine mul_le_mul_of_nonneg_right ?_ (two_pos' k).le
        have h3 : (2 : ℚ) ^ (s + 1) ≤ 2 ^ p := pow_le_pow_right₀ (by norm_num) hs2
        rw [pow_succ] at h3
        linarith
      rw [hc, hr.of_float hf, show (2 ^ s + 1) * a - a = 2 ^ s * a by ring, habs2, ← h, P2]
    · have h2 := (Grid.pow (show u ≤ k by omega)).room ga.abs h
      have h3 := abs_add_le (-(c - a - 2 ^ s * a)) (c - a)
      rw [show -(c - a - 2 ^ s * a) + (c - a) = 2 ^ s * a by ring, abs_neg, habs2] at h3
      rw [P2] at hca ⊢
      nlinarith
  have gbig : Grid (u + s) abig := by
    have := hr.le_abs (.pow hp1 _) (two_pos' _).le hge2
    exact ((hr.float _).grid this).mono (by omega)
  have herrb : |abig - (c - a)| ≤ 2 ^ (u + s - 1) := by
    have := hr.err_le hp1 hle2
    rw [show u + p + s - (p : ℤ) = (u + s - 1) + 1 by ring, pow_succ'] at this
    linarith
  -- the two halves
  have ghi : Grid (u + s) (c - abig) := gc.sub gbig
  have hhi : |c - abig| < 2 ^ (u + p) + 2 ^ (u + s) := by
    have h1 := abs_add_le a (-(abig - (c - a)))
    rw [show a + -(abig - (c - a)) = c - abig by ring, abs_neg] at h1
    have h2 : (2 : ℚ) ^ (u + s - 1) ≤ 2 ^ (u + s) := pow_le (by omega)
    linarith
  have hhi' : |c - abig| ≤ 2 ^ (u + p) := by
    by_contra hcon
    have := (Grid.pow (show u + s ≤ u + p by omega)).room ghi.abs (not_le.1 hcon)
    linarith
  have fhi : IsFloat p (c - abig) := isFloat_of_grid hp1 ghi (hhi'.trans (pow_le (by omega)))
  have glo : Grid u (a - (c - abig)) := ga.sub (ghi.mono (by omega))
  have hlo : |a - (c - abig)| ≤ 2 ^ (u + s - 1) := by
    rwa [show a - (c - abig) = abig - (c - a) by ring]
  have flo : IsFloat p (a - (c - abig)) := isFloat_of_grid hp1 glo (hlo.trans (pow_le (by omega)))
  rw [hr.of_float fhi, hr.of_float flo]
  exact ⟨by ring, ghi, hhi', glo, hlo⟩

theorem split_zero (hr : ToNearest p rnd) (st : Statics) : split rnd st 0 = (0, 0) := by
  simp [split, hr.zero]

theorem abs_mul_le {x y a b : ℚ} (hx : |x| ≤ a) (hy : |y| ≤ b) : |x * y| ≤ a * b := by
  rw [abs_mul]; exact mul_le_mul hx hy (abs_nonneg _) ((abs_nonneg _).trans hx)

/-- `Two_Product`: the rounded product, and exactly what was lost. The splitter has half the bits, rounded up. -/
theorem twoProduct_eq (hr : ToNearest p rnd) (hp : 4 ≤ p) {st : Statics} (hst : st.splitter = 2 ^ ((p + 1) / 2) + 1)
    {a b : ℚ} (ha : IsFloat p a) (hb : IsFloat p b) :
    twoProduct rnd st a b = (rnd (a * b), a * b - rnd (a * b)) ∧ IsFloat p (a * b - rnd (a * b)) := by
  have hp1 : 1 ≤ p := by omega
  rcases eq_or_ne a 0 with rfl | ha0
  · simp [twoProduct, split_zero hr, hr.zero, IsFloat.zero]
  rcases eq_or_ne b 0 with rfl | hb0
  · simp [twoProduct, split_zero hr, hr.zero, IsFloat.zero]
  obtain ⟨s, hs⟩ : ∃ s, s = (p + 1) / 2 := ⟨_, rfl⟩
  have hs1 : 2 * s ≤ p + 1 := by omega
  have hs2 : p ≤ 2 * s := by omega
  rw [← hs] at hst
  obtain ⟨ka, a1, a2⟩ := exists_binade ha0
  obtain ⟨kb, b1, b2⟩ := exists_binade hb0
  have A := split_spec hr (by omega) (by omega) hst ha a1 a2
  have B := split_spec hr (by omega) (by omega) hst hb b1 b2
  simp only [twoProduct]
  generalize (split rnd st a).1 = ahi, (split rnd st a).2 = alo at A ⊢
  generalize (split rnd st b).1 = bhi, (split rnd st b).2 = blo at B ⊢
  set u : ℤ := ka + 1 - p with hu
  set v : ℤ := kb + 1 - p with hv
  set w : ℤ := u + v with hw
  set x := rnd (a * b) with hx
  -- products of the halves
  have l1 : |ahi * bhi| ≤ 2 ^ (w + 2 * p) := by
    refine (abs_mul_le A.hiLe B.hiLe).trans (le_of_eq ?_)
    rw [← zpow_add₀ (by norm_num)]; congr 1; omega
  have l2 : |alo * bhi| ≤ 2 ^ (w + p + s - 1) := by
    refine (abs_mul_le A.loLe B.hiLe).trans (le_of_eq ?_)
    rw [← zpow_add₀ (by norm_num)]; congr 1; omega
  have l3 : |ahi * blo| ≤ 2 ^ (w + p + s - 1) := by
    refine (abs_mul_le A.hiLe B.loLe).trans (le_of_eq ?_)
    rw [← zpow_add₀ (by norm_num)]; congr 1; omega
  have l4 : |alo * blo| ≤ 2 ^ (w + 2 * s - 2) := by
    refine (abs_mul_le A.loLe B.loLe).trans (le_of_eq ?_)
    rw [← zpow_add₀ (by norm_num)]; congr 1; omega
  have g1 : Grid (w + 2 * s) (ahi * bhi) := (A.hiGrid.mul B.hiGrid).mono (by omega)
  have g2 : Grid (w + s) (alo * bhi) := (A.loGrid.mul B.hiGrid).mono (by omega)
  have g3 : Grid (w + s) (ahi * blo) := (A.hiGrid.mul B.loGrid).mono (by omega)
  have g4 : Grid w (alo * blo) := (A.loGrid.mul B.loGrid).mono (by omega)
  have f1 : IsFloat p (ahi * bhi) := isFloat_of_grid hp1 g1 (l1.trans (pow_le (by omega)))
  have f2 : IsFloat p (alo * bhi) := isFloat_of_grid hp1 g2 (l2.trans (pow_le (by omega)))
  have f3 : IsFloat p (ahi * blo) := isFloat_of_grid hp1 g3 (l3.trans (pow_le (by omega)))
  have f4 : IsFloat p (alo * blo) := isFloat_of_grid hp1 g4 (l4.trans (pow_le (by omega)))
  have hab : a * b = ahi * bhi + alo * bhi + ahi * blo + alo * blo := by rw [← A.sum, ← B.sum]; ring
  -- the rounded product
  have hlt : |a * b| ≤ 2 ^ (w + 2 * p) := by
    refine (abs_mul_le a2.le b2.le).trans (le_of_eq ?_)
    rw [← zpow_add₀ (by norm_num)]; congr 1; omega
  have hge : (2 : ℚ) ^ (w + 2 * p - 2) ≤ |a * b| := by
    rw [abs_mul]
    refine le_trans (le_of_eq ?_) (mul_le_mul a1 b1 (two_pos' _).le (abs_nonneg _))
    rw [← zpow_add₀ (by norm_num)]; congr 1; omega
  have gx : Grid (w + p - 1) x := ((hr.float _).grid (hr.le_abs (.pow hp1 _) (two_pos' _).le hge)).mono (by omega)
  have hexr : |x - a * b| ≤ 2 ^ (w + p - 1) := by
    have := hr.err_le hp1 hlt
    rw [show w + 2 * (p : ℤ) - p = (w + p - 1) + 1 by ring, pow_succ'] at this
    linarith
  have gab : Grid w (a * b) := ((ha.grid a1).mul (hb.grid b1)).mono (by omega)
  -- the three steps
  have q1 : (2 : ℚ) ^ (w + p + s) = 2 * 2 ^ (w + p + s - 1) := by
    rw [← pow_succ']; congr 1; omega
  have q2 : (2 : ℚ) ^ (w + p) = 2 * 2 ^ (w + p - 1) := by
    rw [← pow_succ']; congr 1; omega
  have q3 : (2 : ℚ) ^ (w + 2 * s - 2) ≤ 2 ^ (w + p - 1) := pow_le (by omega)
  have q4 : (2 : ℚ) ^ (w + p) ≤ 2 ^ (w + p + s - 1) := pow_le (by omega)
  have q0 := two_pos' (w + p + s - 1)
  have F1 : IsFloat p (x - ahi * bhi) := by
    refine isFloat_of_grid hp1 (e := w + p - 1) (gx.sub (g1.mono (by omega))) ?_
    have e1 : x - ahi * bhi = (x - a * b) + (alo * bhi) + (ahi * blo) + (alo * blo) := by rw [hab]; ring
    have t1 := abs_add_le ((x - a * b) + (alo * bhi) + (ahi * blo)) (alo * blo)
    have t2 := abs_add_le ((x - a * b) + (alo * bhi)) (ahi * blo)
    have t3 := abs_add_le (x - a * b) (alo * bhi)
    have q5 : (2 : ℚ) ^ ((p : ℤ) + (w + p - 1)) = 2 ^ ((w + p + s) + (p - s - 1)) := by congr 1; omega
    have q6 : (2 : ℚ) ^ ((w + p + s) + 1) ≤ 2 ^ ((w + p + s) + (p - s - 1)) := pow_le (by omega)
    rw [pow_succ'] at q6
    rw [e1, q5]
    linarith
  have F2 : IsFloat p (x - ahi * bhi - alo * bhi) := by
    refine isFloat_of_grid hp1 (e := w + s) (((gx.mono (by omega)).sub (g1.mono (by omega))).sub g2) ?_
    have e1 : x - ahi * bhi - alo * bhi = (x - a * b) + (ahi * blo) + (alo * blo) := by rw [hab]; ring
    have t1 := abs_add_le ((x - a * b) + (ahi * blo)) (alo * blo)
    have t2 := abs_add_le (x - a * b) (ahi * blo)
    rw [e1, show (p : ℤ) + (w + s) = w + p + s by ring]
    linarith
  have F3 : IsFloat p (x - ahi * bhi - alo * bhi - ahi * blo) := by
    refine isFloat_of_grid hp1 (e := w) ((((gx.mono (by omega)).sub (g1.mono (by omega))).sub (g2.mono (by omega))).sub (g3.mono (by omega))) ?_
    have e1 : x - ahi * bhi - alo * bhi - ahi * blo = (x - a * b) + (alo * blo) := by rw [hab]; ring
    have t1 := abs_add_le (x - a * b) (alo * blo)
    rw [e1, show (p : ℤ) + w = w + p by ring]
    linarith
  have F4 : IsFloat p (a * b - x) := by
    refine isFloat_of_grid hp1 (e := w) (gab.sub (gx.mono (by omega))) ?_
    rw [abs_sub_comm, show (p : ℤ) + w = w + p by ring]
    have := two_pos' (w + p - 1)
    linarith
  refine ⟨?_, F4⟩
  rw [hr.of_float f1, hr.of_float f2, hr.of_float f3, hr.of_float f4, hr.of_float F1, hr.of_float F2, hr.of_float F3]
  have e5 : alo * blo - (x - ahi * bhi - alo * bhi - ahi * blo) = a * b - x := by rw [hab]; ring
  rw [e5, hr.of_float F4]

end Verif.Float
