import Verif.Proofs.FloatBasic
/- Rounding to nearest, ties to even, exists: the default rounding of IEEE 754 without bounds on the exponent. -/
namespace Verif.Float

/-- Nearest integer, the even one in the middle between two. -/
def roundEven (q : ℚ) : ℤ :=
  if q - ⌊q⌋ < 1 / 2 then ⌊q⌋ else if 1 / 2 < q - ⌊q⌋ then ⌊q⌋ + 1 else if Even ⌊q⌋ then ⌊q⌋ else ⌊q⌋ + 1

/-- Nearest number of `p` bits, the one with even significand in the middle between two. -/
def rne (p : ℕ) (x : ℚ) : ℚ :=
  if x = 0 then 0 else roundEven (x / 2 ^ (Int.log 2 |x| + 1 - p)) * 2 ^ (Int.log 2 |x| + 1 - p)

theorem roundEven_near (q : ℚ) (m : ℤ) : |(roundEven q : ℚ) - q| ≤ |(m : ℚ) - q| := by
  have h1 := Int.floor_le q
  have h2 := Int.lt_floor_add_one q
  have hm : (m : ℚ) ≤ ⌊q⌋ ∨ (⌊q⌋ : ℚ) + 1 ≤ m := by
    rcases le_or_gt m ⌊q⌋ with h | h
    · left; exact_mod_cast h
    · right; exact_mod_cast h
  unfold roundEven
  split_ifs with c1 c2 c3 <;> push_cast
  · rw [abs_of_nonpos (by linarith)]
    rcases hm with h | h
    · rw [abs_of_nonpos (by linarith)]; linarith
    · rw [abs_of_nonneg (by linarith)]; linarith
  · rw [abs_of_nonneg (by linarith)]
    rcases hm with h | h
    · rw [abs_of_nonpos (by linarith)]; linarith
    · rw [abs_of_nonneg (by linarith)]; linarith
  · rw [abs_of_nonpos (by linarith)]
    rcases hm with h | h
    · rw [abs_of_nonpos (by linarith)]; linarith
    · rw [abs_of_nonneg (by linarith)]; linarith
  · rw [abs_of_nonneg (by linarith)]
    rcases hm with h | h
    · rw [abs_of_nonpos (by linarith)]; linarith
    · rw [abs_of_nonneg (by linarith)]; linarith

theorem roundEven_even (q : ℚ) (m : ℤ) (hm : m ≠ roundEven q) (h : |(m : ℚ) - q| = |(roundEven q : ℚ) - q|) : Even (roundEven q) := by
  have h1 := Int.floor_le q
  have h2 := Int.lt_floor_add_one q
  have hm' : (m : ℚ) ≤ ⌊q⌋ ∨ (⌊q⌋ : ℚ) + 1 ≤ m := by
    rcases le_or_gt m ⌊q⌋ with h | h
    · left; exact_mod_cast h
    · right; exact_mod_cast h
  unfold roundEven at h hm ⊢
  split_ifs at h hm ⊢ with c1 c2 c3
  · exfalso
    rw [abs_of_nonpos (show (⌊q⌋ : ℚ) - q ≤ 0 by linarith)] at h
    rcases hm' with k | k
    · rw [abs_of_nonpos (by linarith)] at h; exact hm (by exact_mod_cast (by linarith : (m : ℚ) = ⌊q⌋))
    · rw [abs_of_nonneg (by linarith)] at h; linarith
  · exfalso
    push_cast at h
    rw [abs_of_nonneg (show 0 ≤ (⌊q⌋ : ℚ) + 1 - q by linarith)] at h
    rcases hm' with k | k
    · rw [abs_of_nonpos (by linarith)] at h; linarith
    · rw [abs_of_nonneg (by linarith)] at h
      apply hm; exact_mod_cast (by push_cast; linarith : (m : ℚ) = ((⌊q⌋ + 1 : ℤ) : ℚ))
  · exact c3
  · exact Int.even_add_one.2 c3

/-- The binade of a number that is not zero. -/
theorem log_spec {x : ℚ} (hx : x ≠ 0) : (2 : ℚ) ^ Int.log 2 |x| ≤ |x| ∧ |x| < 2 ^ (Int.log 2 |x| + 1) := by
  have h0 := abs_pos.2 hx
  exact ⟨by exact_mod_cast Int.zpow_log_le_self (b := 2) (by norm_num) h0, by exact_mod_cast Int.lt_zpow_succ_log_self (R := ℚ) (b := 2) (by norm_num) |x|⟩

section
variable {p : ℕ} (hp : 1 ≤ p) {x : ℚ} (hx : x ≠ 0)
include hp hx

/-- The significand: at least `2 ^ (p - 1)`, at most `2 ^ p`. -/
theorem sig_bounds : (2 : ℚ) ^ (p - 1) ≤ |x / 2 ^ (Int.log 2 |x| + 1 - p)| ∧ |x / 2 ^ (Int.log 2 |x| + 1 - p)| < 2 ^ p := by
  obtain ⟨h1, h2⟩ := log_spec hx
  have hs := two_pos' (Int.log 2 |x| + 1 - p)
  rw [abs_div, abs_of_pos hs, le_div_iff₀ hs, div_lt_iff₀ hs]
  constructor
  · refine le_of_eq_of_le ?_ h1
    rw [← zpow_natCast, ← zpow_add₀ (by norm_num)]; congr 1; push_cast [hp]; ring
  · refine lt_of_lt_of_eq h2 ?_
    rw [← zpow_natCast, ← zpow_add₀ (by norm_num)]; congr 1; ring

theorem sig_round : (2 : ℤ) ^ (p - 1) ≤ |roundEven (x / 2 ^ (Int.log 2 |x| + 1 - p))| ∧ |roundEven (x / 2 ^ (Int.log 2 |x| + 1 - p))| ≤ 2 ^ p := by
  obtain ⟨h1, h2⟩ := sig_bounds hp hx
  generalize x / 2 ^ (Int.log 2 |x| + 1 - p) = q at h1 h2
  have k := roundEven_near q
  have hlo : ((2 : ℤ) ^ (p - 1) : ℚ) ≤ |(roundEven q : ℚ)| := by
    push_cast
    rcases le_total 0 q with h0 | h0
    · rw [abs_of_nonneg h0] at h1
      have := k (2 ^ (p - 1)); push_cast at this
      rw [abs_of_nonpos (show (2 : ℚ) ^ (p - 1) - q ≤ 0 by linarith)] at this
      have := (abs_le.1 this).1
      exact le_trans (by linarith) (le_abs_self _)
    · rw [abs_of_nonpos h0] at h1
      have := k (-2 ^ (p - 1)); push_cast at this
      rw [abs_of_nonneg (show (0 : ℚ) ≤ -2 ^ (p - 1) - q by linarith)] at this
      have := (abs_le.1 this).2
      exact le_trans (by linarith) (neg_le_abs _)
  have hhi : |(roundEven q : ℚ)| ≤ (2 : ℤ) ^ p := by
    push_cast
    rcases le_total 0 q with h0 | h0
    · rw [abs_of_nonneg h0] at h2
      have a1 := k (2 ^ p); push_cast at a1
      rw [abs_of_nonneg (show (0 : ℚ) ≤ 2 ^ p - q by linarith)] at a1
      have a2 := k 0; push_cast at a2
      rw [zero_sub, abs_neg, abs_of_nonneg h0] at a2
      rw [abs_le]
      have := abs_le.1 a1; have := abs_le.1 a2
      constructor
      · have : (0 : ℚ) < 2 ^ p := by positivity
        linarith
      · linarith
    · rw [abs_of_nonpos h0] at h2
      have a1 := k (-2 ^ p); push_cast at a1
      rw [abs_of_nonpos (show (-2 ^ p - q : ℚ) ≤ 0 by linarith)] at a1
      have a2 := k 0; push_cast at a2
      rw [zero_sub, abs_neg, abs_of_nonpos h0] at a2
      rw [abs_le]
      have := abs_le.1 a1; have := abs_le.1 a2
      constructor
      · linarith
      · have : (0 : ℚ) < 2 ^ p := by positivity
        linarith
  exact ⟨by exact_mod_cast hlo, by exact_mod_cast hhi⟩

end

variable {p : ℕ}

theorem rne_toNearest (hp : 1 ≤ p) : ToNearest p (rne p) where
  float x := by
    unfold rne
    split_ifs with hx
    · exact .zero
    · apply isFloat_of_grid hp ⟨_, rfl⟩
      rw [abs_mul, abs_of_pos (two_pos' _), two_pow_p]
      exact mul_le_mul_of_nonneg_right (by exact_mod_cast (sig_round hp hx).2) (two_pos' _).le
  nearest x f hf := by
    by_cases hx : x = 0
    · simp [rne, hx]
    · have hs := two_pos' (Int.log 2 |x| + 1 - p)
      have key : ∀ g, Grid (Int.log 2 |x| + 1 - p) g → |rne p x - x| ≤ |g - x| := by
        rintro g ⟨m, rfl⟩
        rw [rne, if_neg hx]
        have h1 := mul_le_mul_of_nonneg_right (roundEven_near (x / 2 ^ (Int.log 2 |x| + 1 - p)) m) hs.le
        rw [← abs_of_pos hs, ← abs_mul, ← abs_mul, abs_of_pos hs, sub_mul, sub_mul, div_mul_cancel₀ _ hs.ne'] at h1
        exact h1
      obtain ⟨b1, b2⟩ := log_spec hx
      rcases le_or_gt (2 ^ Int.log 2 |x|) |f| with h | h
      · exact key f (hf.grid h)
      · -- the end of the binade is nearer
        have hg : Grid (Int.log 2 |x| + 1 - p) (2 ^ Int.log 2 |x|) := Grid.pow (by omega)
        rcases le_total 0 x with h0 | h0
        · refine (key _ hg).trans ?_
          rw [abs_of_nonneg h0] at b1 h ⊢
          have := (abs_lt.1 h).2
          rw [abs_of_nonneg h0] at hg
          rw [abs_of_nonpos (by linarith), abs_of_nonpos (by linarith)]; linarith
        · refine (key _ hg.neg).trans ?_
          rw [abs_of_nonpos h0] at b1 h ⊢
          have := (abs_lt.1 h).1
          rw [abs_of_nonneg (by linarith), abs_of_nonneg (by linarith)]; linarith

/-- The default rounding of IEEE 754 is one the theorems are about. -/
theorem rne_toEven (hp : 2 ≤ p) : ToEven p (rne p) where
  toToNearest := rne_toNearest (by omega)
  ties x f hf hne hd := by
    have hp1 : 1 ≤ p := by omega
    by_cases hx : x = 0
    · simp only [rne, hx, if_true, sub_zero, abs_zero, abs_eq_zero] at hd hne; exact absurd hd hne
    have hs := two_pos' (Int.log 2 |x| + 1 - p)
    obtain ⟨b1, b2⟩ := log_spec hx
    obtain ⟨r1, r2⟩ := sig_round hp1 hx
    have hrn : rne p x = roundEven (x / 2 ^ (Int.log 2 |x| + 1 - p)) * 2 ^ (Int.log 2 |x| + 1 - p) := by rw [rne, if_neg hx]
    have even : Even (roundEven (x / 2 ^ (Int.log 2 |x| + 1 - p))) := by
      rcases le_or_gt (2 ^ Int.log 2 |x|) |f| with h | h
      · obtain ⟨m, hm⟩ := hf.grid h
        refine roundEven_even _ m ?_ ?_
        · rintro rfl; exact hne (by rw [hm, hrn])
        · rw [hm, hrn] at hd
          have : ∀ n : ℤ, |(n : ℚ) * 2 ^ (Int.log 2 |x| + 1 - p) - x| = |(n : ℚ) - x / 2 ^ (Int.log 2 |x| + 1 - p)| * 2 ^ (Int.log 2 |x| + 1 - p) := by
            intro n
            conv_rhs => rw [← abs_of_pos hs, ← abs_mul, abs_of_pos hs, sub_mul, div_mul_cancel₀ _ hs.ne']
          rw [this, this] at hd
          exact mul_right_cancel₀ hs.ne' hd
      · -- a number below the binade is not as near as its end
        exfalso
        have hN := (rne_toNearest hp1 (p := p)).nearest x
        rcases le_total 0 x with h0 | h0
        · rw [abs_of_nonneg h0] at b1 h
          have k := hN _ (IsFloat.pow hp1 (Int.log 2 x))
          rw [← hd] at k
          have := (abs_lt.1 h).2
          rw [abs_of_nonpos (by linarith), abs_of_nonpos (by linarith)] at k; linarith
        · rw [abs_of_nonpos h0] at b1 h
          have k := hN _ (IsFloat.pow hp1 (Int.log 2 (-x))).neg
          rw [← hd] at k
          have := (abs_lt.1 h).1
          rw [abs_of_nonneg (by linarith), abs_of_nonneg (by linarith)] at k; linarith
    rcases lt_or_eq_of_le r2 with h | h
    · exact ⟨_, _, r1, h, even, hrn⟩
    · -- the significand became `2 ^ p`
      have h2p : (2 : ℤ) ^ p = 2 * 2 ^ (p - 1) := by rw [← pow_succ']; congr 1; omega
      have hev : Even ((2 : ℤ) ^ (p - 1)) := by rw [show p - 1 = (p - 2) + 1 by omega, pow_succ]; exact ⟨2 ^ (p - 2), by ring⟩
      have hpos : (0 : ℤ) < 2 ^ (p - 1) := by positivity
      have e1 : (2 : ℚ) ^ (Int.log 2 |x| + 1 - p + 1) = 2 ^ (Int.log 2 |x| + 1 - p) * 2 := by rw [zpow_add_one₀ (by norm_num)]
      have h2q : (2 : ℚ) ^ p = 2 * 2 ^ (p - 1) := by exact_mod_cast h2p
      rcases le_total 0 (roundEven (x / 2 ^ (Int.log 2 |x| + 1 - p))) with h0 | h0
      · rw [abs_of_nonneg h0] at h
        refine ⟨2 ^ (p - 1), Int.log 2 |x| + 1 - p + 1, by rw [abs_of_pos hpos], by rw [abs_of_pos hpos]; omega, hev, ?_⟩
        rw [hrn, h, e1]; push_cast; rw [h2q]; ring
      · rw [abs_of_nonpos h0] at h
        refine ⟨-2 ^ (p - 1), Int.log 2 |x| + 1 - p + 1, by rw [abs_neg, abs_of_pos hpos], by rw [abs_neg, abs_of_pos hpos]; omega, hev.neg, ?_⟩
        rw [hrn, show roundEven (x / 2 ^ (Int.log 2 |x| + 1 - p)) = -2 ^ p by omega, e1]; push_cast; rw [h2q]; ring

end Verif.Float
