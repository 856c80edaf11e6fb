import Verif.Proofs.FloatOrient
/- `orient2dadapt`. -/
namespace Verif.Float
open Verif.Pred
variable {p : ℕ} {rnd : ℚ → ℚ}

/-- The second test: an estimate `q` of the determinant `V` of the rounded differences. -/
theorem stageB (hr : ToNearest p rnd) (hp : 10 ≤ p) {X Y U W x y u w l r s q : ℚ}
    (h : Parts (2 ^ (-(p : ℤ))) X Y U W x y u w l r) (hs : s = rnd (|l| + |r|)) (hl : l ≠ 0)
    (hq : |q - (x * w - y * u)| ≤ 9 / 4 * 2 ^ (-(p : ℤ)) * |q|)
    (hd : |q| ≥ rnd ((initialised p).ccwB * s)) : SameSign q (X * W - Y * U) := by
  have hp1 : 1 ≤ p := by omega
  have hε1 := eps_le_1024 hp
  have h2 := sum_le hr hp1 (add_nonneg (abs_nonneg l) (abs_nonneg r))
  rw [← hs] at h2
  have hε0 : (0 : ℚ) < 2 ^ (-(p : ℤ)) := two_pos' _
  have h3 := h.tail_le hε0.le
  have hs0 : 0 < s := by rw [hs, hr.pos_iff hp1]; have := abs_pos.2 hl; have := abs_nonneg r; linarith
  have h4 := rnd_ge hr hp1 (t := (initialised p).ccwB * s) (by simp only [initialised]; positivity)
  simp only [initialised] at hd h4
  set ε : ℚ := 2 ^ (-(p : ℤ)) with hε
  apply sameSign_of_close
  have t1 : |(X * W - Y * U) - q| ≤ |(X * W - Y * U) - (x * w - y * u)| + |q - (x * w - y * u)| := by
    have := abs_sub ((X * W - Y * U) - (x * w - y * u)) (q - (x * w - y * u))
    rwa [sub_sub_sub_cancel_right] at this
  have t3 : (2 * ε + ε ^ 2) * (1 + ε) * (|l| + |r|) ≤ (2 * ε + ε ^ 2) * (1 + ε) * ((1 + ε) * s) :=
    mul_le_mul_of_nonneg_left h2 (by positivity)
  have t4 : (1 - ε) * ((2 + 12 * ε) * ε * s) ≤ |q| := h4.trans hd
  have t5 : (1 - 9 / 4 * ε) * ((1 - ε) * ((2 + 12 * ε) * ε * s)) ≤ (1 - 9 / 4 * ε) * |q| := mul_le_mul_of_nonneg_left t4 (by linarith)
  have t6 : (2 * ε + ε ^ 2) * (1 + ε) * ((1 + ε) * s) < (1 - 9 / 4 * ε) * ((1 - ε) * ((2 + 12 * ε) * ε * s)) := by
    have e2 : (1 - 9 / 4 * ε) * ((1 - ε) * (2 + 12 * ε)) - (2 + ε) * (1 + ε) * (1 + ε) = ε * (1 / 2 - 77 / 2 * ε + 26 * ε ^ 2) := by ring
    have e3 : (1 - 9 / 4 * ε) * ((1 - ε) * ((2 + 12 * ε) * ε * s)) - (2 * ε + ε ^ 2) * (1 + ε) * ((1 + ε) * s) = ε * s * (ε * (1 / 2 - 77 / 2 * ε + 26 * ε ^ 2)) := by
      rw [← e2]; ring
    have : 0 < ε * s * (ε * (1 / 2 - 77 / 2 * ε + 26 * ε ^ 2)) := by
      have : 0 < 1 / 2 - 77 / 2 * ε + 26 * ε ^ 2 := by nlinarith
      positivity
    linarith
  linarith

theorem abs_rnd_le (hr : ToNearest p rnd) (hp : 1 ≤ p) {t b : ℚ} (h : |t| ≤ b) : |rnd t| ≤ (1 + 2 ^ (-(p : ℤ))) * b := by
  have h1 := hr.rel hp t
  have h2 := abs_add_le (rnd t - t) t
  rw [sub_add_cancel] at h2
  have h3 := mul_le_mul_of_nonneg_left h (two_pos' (-(p : ℤ))).le
  linarith

/-- The sum of two rounded products with a small factor. -/
theorem cross_near (hr : ToNearest p rnd) (hp : 1 ≤ p) {x w xt wt : ℚ} (hx : |xt| ≤ 2 ^ (-(p : ℤ)) * |x|) (hw : |wt| ≤ 2 ^ (-(p : ℤ)) * |w|) :
    let ε : ℚ := 2 ^ (-(p : ℤ))
    |rnd (rnd (x * wt) + rnd (w * xt)) - (x * wt + w * xt)| ≤ (4 + 2 * ε) * ε ^ 2 * |x * w| ∧
      |rnd (rnd (x * wt) + rnd (w * xt))| ≤ 2 * (1 + ε) ^ 2 * ε * |x * w| := by
  intro ε
  have hε0 : 0 < ε := two_pos' _
  have a1 : |x * wt| ≤ ε * |x * w| := by
    rw [abs_mul, abs_mul]
    have := mul_le_mul_of_nonneg_left hw (abs_nonneg x)
    calc _ ≤ _ := this
      _ = _ := by ring
  have a2 : |w * xt| ≤ ε * |x * w| := by
    rw [abs_mul, abs_mul]
    have := mul_le_mul_of_nonneg_left hx (abs_nonneg w)
    calc _ ≤ _ := this
      _ = _ := by ring
  have b1 := abs_rnd_le hr hp a1
  have b2 := abs_rnd_le hr hp a2
  have c1 := hr.rel hp (x * wt)
  have c2 := hr.rel hp (w * xt)
  have c1' : |rnd (x * wt) - x * wt| ≤ ε * (ε * |x * w|) := c1.trans (mul_le_mul_of_nonneg_left a1 hε0.le)
  have c2' : |rnd (w * xt) - w * xt| ≤ ε * (ε * |x * w|) := c2.trans (mul_le_mul_of_nonneg_left a2 hε0.le)
  have d1 : |rnd (x * wt) + rnd (w * xt)| ≤ 2 * (1 + ε) * (ε * |x * w|) := by
    have := abs_add_le (rnd (x * wt)) (rnd (w * xt)); linarith
  have d2 := abs_rnd_le hr hp d1
  have d3 := (hr.rel hp (rnd (x * wt) + rnd (w * xt))).trans (mul_le_mul_of_nonneg_left d1 hε0.le)
  refine ⟨?_, ?_⟩
  · generalize rnd (rnd (x * wt) + rnd (w * xt)) = z at *
    have e1 : z - (x * wt + w * xt) = (z - (rnd (x * wt) + rnd (w * xt))) + (rnd (x * wt) - x * wt) + (rnd (w * xt) - w * xt) := by ring
    have f1 := abs_add_le ((z - (rnd (x * wt) + rnd (w * xt))) + (rnd (x * wt) - x * wt)) (rnd (w * xt) - w * xt)
    have f2 := abs_add_le (z - (rnd (x * wt) + rnd (w * xt))) (rnd (x * wt) - x * wt)
    rw [e1]
    calc _ ≤ ε * (2 * (1 + ε) * (ε * |x * w|)) + ε * (ε * |x * w|) + ε * (ε * |x * w|) := by linarith
      _ = _ := by ring
  · calc _ ≤ _ := d2
      _ = _ := by ring

/-- The arithmetic of the third test. -/
theorem stageC_num {ε s qa da P err : ℚ} (hε0 : 0 < ε) (hε1 : ε ≤ 1 / 1024) (hs0 : 0 < s) (hq0 : 0 ≤ qa) (hPs : P ≤ (1 + ε) ^ 2 * s)
    (hE1 : (1 - ε) * ((1 - ε) * ((9 + 64 * ε) * ε * ε * s) + (1 - ε) * ((3 + 8 * ε) * ε * qa)) ≤ da)
    (tot : err ≤ (7 + 6 * ε + 2 * ε ^ 2) * ε ^ 2 * P + 9 / 4 * ε * qa + ε * da) : err < da := by
  have tot2 : (7 + 6 * ε + 2 * ε ^ 2) * ε ^ 2 * P ≤ (7 + 6 * ε + 2 * ε ^ 2) * ε ^ 2 * ((1 + ε) ^ 2 * s) :=
    mul_le_mul_of_nonneg_left hPs (by positivity)
  have tot3 : (7 + 6 * ε + 2 * ε ^ 2) * (1 + ε) ^ 2 ≤ 15 / 2 := by
    have a : 1 + ε ≤ 1025 / 1024 := by linarith
    have b : (1 + ε) ^ 2 ≤ (1025 / 1024) ^ 2 := pow_le_pow_left₀ (by linarith) a 2
    have c : 7 + 6 * ε + 2 * ε ^ 2 ≤ 7 + 8 / 1024 := by nlinarith
    calc _ ≤ (7 + 8 / 1024) * (1025 / 1024) ^ 2 := mul_le_mul c b (by positivity) (by norm_num)
      _ ≤ _ := by norm_num
  have tot4 : (7 + 6 * ε + 2 * ε ^ 2) * ε ^ 2 * ((1 + ε) ^ 2 * s) ≤ 15 / 2 * (ε ^ 2 * s) := by
    calc _ = (7 + 6 * ε + 2 * ε ^ 2) * (1 + ε) ^ 2 * (ε ^ 2 * s) := by ring
      _ ≤ _ := mul_le_mul_of_nonneg_right tot3 (by positivity)
  have low : (1 - ε) * ((1 - ε) * ((1 - ε) * ((9 + 64 * ε) * ε * ε * s) + (1 - ε) * ((3 + 8 * ε) * ε * qa))) ≤ (1 - ε) * da :=
    mul_le_mul_of_nonneg_left hE1 (by linarith)
  have cube : 1 - 3 * ε ≤ (1 - ε) ^ 3 := by 
    have : (1 - ε) ^ 3 = 1 - 3 * ε + ε ^ 2 * (3 - ε) := by ring
    have : 0 ≤ ε ^ 2 * (3 - ε) := mul_nonneg (sq_nonneg _) (by linarith)
    linarith
  have low2 : 8 * (ε ^ 2 * s) + 5 / 2 * ε * qa ≤ (1 - ε) * ((1 - ε) * ((1 - ε) * ((9 + 64 * ε) * ε * ε * s) + (1 - ε) * ((3 + 8 * ε) * ε * qa))) := by
    have u1 : 8 ≤ (1 - ε) ^ 3 * (9 + 64 * ε) := by
      have := mul_le_mul_of_nonneg_right cube (show 0 ≤ 9 + 64 * ε by linarith)
      have h1 : (1 - 3 * ε) * (9 + 64 * ε) = 9 + ε * (37 - 192 * ε) := by ring
      have : 0 ≤ ε * (37 - 192 * ε) := mul_nonneg hε0.le (by linarith)
      linarith
    have u2 : 5 / 2 ≤ (1 - ε) ^ 3 * (3 + 8 * ε) := by
      have := mul_le_mul_of_nonneg_right cube (show 0 ≤ 3 + 8 * ε by linarith)
      have h1 : (1 - 3 * ε) * (3 + 8 * ε) = 3 - ε * (1 + 24 * ε) := by ring
      have : ε * (1 + 24 * ε) ≤ 1 / 1024 * 2 := mul_le_mul hε1 (by linarith) (by linarith) (by norm_num)
      linarith
    have v1 := mul_le_mul_of_nonneg_right u1 (show 0 ≤ ε ^ 2 * s by positivity)
    have v2 := mul_le_mul_of_nonneg_right u2 (show 0 ≤ ε * qa by positivity)
    calc _ = 8 * (ε ^ 2 * s) + 5 / 2 * (ε * qa) := by ring
      _ ≤ (1 - ε) ^ 3 * (9 + 64 * ε) * (ε ^ 2 * s) + (1 - ε) ^ 3 * (3 + 8 * ε) * (ε * qa) := add_le_add v1 v2
      _ = _ := by ring
  have sp : 0 < ε ^ 2 * s := by positivity
  have qp : 0 ≤ ε * qa := by positivity
  linarith

/-- How near the third estimate is. -/
theorem stageC_tot (hr : ToNearest p rnd) (hp : 10 ≤ p) {X Y U W x y u w l r s q : ℚ}
    (h : Parts (2 ^ (-(p : ℤ))) X Y U W x y u w l r) (hs : s = rnd (|l| + |r|))
    (hq : |q - (x * w - y * u)| ≤ 9 / 4 * 2 ^ (-(p : ℤ)) * |q|) {d : ℚ}
    (hd : d = rnd (q + rnd (rnd (rnd (x * (W - w)) + rnd (w * (X - x))) - rnd (rnd (y * (U - u)) + rnd (u * (Y - y)))))) :
    let ε : ℚ := 2 ^ (-(p : ℤ))
    |x * w| + |y * u| ≤ (1 + ε) ^ 2 * s ∧
      |(X * W - Y * U) - d| ≤ (7 + 6 * ε + 2 * ε ^ 2) * ε ^ 2 * (|x * w| + |y * u|) + 9 / 4 * ε * |q| + ε * |d| := by
  have hp1 : 1 ≤ p := by omega
  have hε1 := eps_le_1024 hp
  have h2 := sum_le hr hp1 (add_nonneg (abs_nonneg l) (abs_nonneg r))
  rw [← hs] at h2
  have hε0 : (0 : ℚ) < 2 ^ (-(p : ℤ)) := two_pos' _
  -- the correction
  obtain ⟨c1, c2⟩ := cross_near hr hp1 h.hx h.hw
  obtain ⟨c3, c4⟩ := cross_near hr hp1 h.hy h.hu
  generalize rnd (rnd (x * (W - w)) + rnd (w * (X - x))) = t3 at c1 c2 hd
  generalize rnd (rnd (y * (U - u)) + rnd (u * (Y - y))) = s3 at c3 c4 hd
  have r1 := hr.rel hp1 (t3 - s3)
  generalize rnd (t3 - s3) = t at r1 hd
  have r2 := hr.rel' hp1 (q + t)
  rw [← hd] at r2
  have k1 := h.xw_le
  have k2 := h.yu_le
  have hxx := mul_le_mul h.hx h.hw (abs_nonneg _) (mul_nonneg hε0.le (abs_nonneg x))
  have hyy := mul_le_mul h.hy h.hu (abs_nonneg _) (mul_nonneg hε0.le (abs_nonneg y))
  intro ε
  replace hε0 : 0 < ε := hε0
  set P := |x * w| + |y * u| with hP
  have hP0 : 0 ≤ P := by positivity
  have hPs : P ≤ (1 + ε) ^ 2 * s := by
    have : (1 + ε) * (|l| + |r|) ≤ (1 + ε) * ((1 + ε) * s) := mul_le_mul_of_nonneg_left h2 (by linarith)
    calc P ≤ (1 + ε) * (|l| + |r|) := by rw [hP]; linarith
      _ ≤ _ := this
      _ = _ := by ring
  have m1 : |t3 - s3| ≤ 2 * (1 + ε) ^ 2 * ε * P := by
    have := abs_sub t3 s3
    have e : 2 * (1 + ε) ^ 2 * ε * P = 2 * (1 + ε) ^ 2 * ε * |x * w| + 2 * (1 + ε) ^ 2 * ε * |y * u| := by rw [hP]; ring
    linarith
  have m2 : |t - (t3 - s3)| ≤ ε * (2 * (1 + ε) ^ 2 * ε * P) := r1.trans (mul_le_mul_of_nonneg_left m1 hε0.le)
  have m3 : |(X - x) * (W - w) - (Y - y) * (U - u)| ≤ ε ^ 2 * P := by
    have := abs_sub ((X - x) * (W - w)) ((Y - y) * (U - u))
    rw [abs_mul, abs_mul] at this
    have e : ε ^ 2 * P = ε * |x| * (ε * |w|) + ε * |y| * (ε * |u|) := by rw [hP, abs_mul, abs_mul]; ring
    linarith
  -- everything together
  have e0 : (X * W - Y * U) - d = ((X - x) * (W - w) - (Y - y) * (U - u)) - (q - (x * w - y * u)) - (t3 - (x * (W - w) + w * (X - x)))
      + (s3 - (y * (U - u) + u * (Y - y))) - (t - (t3 - s3)) - (d - (q + t)) := by ring
  have n1 := abs_sub (((X - x) * (W - w) - (Y - y) * (U - u)) - (q - (x * w - y * u)) - (t3 - (x * (W - w) + w * (X - x)))
      + (s3 - (y * (U - u) + u * (Y - y))) - (t - (t3 - s3))) (d - (q + t))
  have n2 := abs_sub (((X - x) * (W - w) - (Y - y) * (U - u)) - (q - (x * w - y * u)) - (t3 - (x * (W - w) + w * (X - x)))
      + (s3 - (y * (U - u) + u * (Y - y)))) (t - (t3 - s3))
  have n3 := abs_add_le (((X - x) * (W - w) - (Y - y) * (U - u)) - (q - (x * w - y * u)) - (t3 - (x * (W - w) + w * (X - x))))
      (s3 - (y * (U - u) + u * (Y - y)))
  have n4 := abs_sub (((X - x) * (W - w) - (Y - y) * (U - u)) - (q - (x * w - y * u))) (t3 - (x * (W - w) + w * (X - x)))
  have n5 := abs_sub ((X - x) * (W - w) - (Y - y) * (U - u)) (q - (x * w - y * u))
  have e1 : (4 + 2 * ε) * ε ^ 2 * P = (4 + 2 * ε) * ε ^ 2 * |x * w| + (4 + 2 * ε) * ε ^ 2 * |y * u| := by rw [hP]; ring
  have tot : |(X * W - Y * U) - d| ≤ (7 + 6 * ε + 2 * ε ^ 2) * ε ^ 2 * P + 9 / 4 * ε * |q| + ε * |d| := by
    have e2 : (7 + 6 * ε + 2 * ε ^ 2) * ε ^ 2 * P = (4 + 2 * ε) * ε ^ 2 * P + ε * (2 * (1 + ε) ^ 2 * ε * P) + ε ^ 2 * P := by ring
    rw [e0]
    linarith
  exact ⟨hPs, tot⟩

/-- The third test, with the products of the differences and their errors. -/
theorem stageC (hr : ToNearest p rnd) (hp : 10 ≤ p) {X Y U W x y u w l r s q : ℚ}
    (h : Parts (2 ^ (-(p : ℤ))) X Y U W x y u w l r) (hs : s = rnd (|l| + |r|)) (hl : l ≠ 0)
    (hq : |q - (x * w - y * u)| ≤ 9 / 4 * 2 ^ (-(p : ℤ)) * |q|) {d : ℚ}
    (hd : d = rnd (q + rnd (rnd (rnd (x * (W - w)) + rnd (w * (X - x))) - rnd (rnd (y * (U - u)) + rnd (u * (Y - y))))))
    (hge : |d| ≥ rnd (rnd ((initialised p).ccwC * s) + rnd ((initialised p).resulterrbound * |q|))) : SameSign d (X * W - Y * U) := by
  have hp1 : 1 ≤ p := by omega
  have hε1 := eps_le_1024 hp
  have hε0 : (0 : ℚ) < 2 ^ (-(p : ℤ)) := two_pos' _
  have hs0 : 0 < s := by rw [hs, hr.pos_iff hp1]; have := abs_pos.2 hl; have := abs_nonneg r; linarith
  have hq0 := abs_nonneg q
  obtain ⟨hPs, tot⟩ := stageC_tot hr hp h hs hq hd
  -- the bound
  have g1 := rnd_ge hr hp1 (t := (initialised p).ccwC * s) (by simp only [initialised]; positivity)
  have g2 := rnd_ge hr hp1 (t := (initialised p).resulterrbound * |q|) (by simp only [initialised]; positivity)
  have g1n : 0 ≤ rnd ((initialised p).ccwC * s) := hr.le_of_le .zero (by simp only [initialised]; positivity)
  have g2n : 0 ≤ rnd ((initialised p).resulterrbound * |q|) := hr.le_of_le .zero (by simp only [initialised]; positivity)
  have g3 := (rnd_ge hr hp1 (add_nonneg g1n g2n)).trans hge
  simp only [initialised] at g1 g2
  have hE1 : (1 - (2 : ℚ) ^ (-(p : ℤ))) * ((1 - 2 ^ (-(p : ℤ))) * ((9 + 64 * 2 ^ (-(p : ℤ))) * 2 ^ (-(p : ℤ)) * 2 ^ (-(p : ℤ)) * s) +
      (1 - 2 ^ (-(p : ℤ))) * ((3 + 8 * 2 ^ (-(p : ℤ))) * 2 ^ (-(p : ℤ)) * |q|)) ≤ |d| := by
    refine le_trans (mul_le_mul_of_nonneg_left (add_le_add g1 g2) (by linarith)) ?_
    simpa only [initialised] using g3
  set ε : ℚ := 2 ^ (-(p : ℤ)) with hε
  apply sameSign_of_close
  exact stageC_num hε0 hε1 hs0 hq0 hPs hE1 tot

/-- When none of the three tests decides, the determinant is tiny. -/
theorem not_stageC (hr : ToNearest p rnd) (hp : 10 ≤ p) {X Y U W x y u w l r s q : ℚ}
    (h : Parts (2 ^ (-(p : ℤ))) X Y U W x y u w l r) (hs : s = rnd (|l| + |r|))
    (hq : |q - (x * w - y * u)| ≤ 9 / 4 * 2 ^ (-(p : ℤ)) * |q|) {d : ℚ}
    (hd : d = rnd (q + rnd (rnd (rnd (x * (W - w)) + rnd (w * (X - x))) - rnd (rnd (y * (U - u)) + rnd (u * (Y - y))))))
    (hB : |q| < rnd ((initialised p).ccwB * s))
    (hC : |d| < rnd (rnd ((initialised p).ccwC * s) + rnd ((initialised p).resulterrbound * |q|))) :
    |X * W - Y * U| ≤ 29 * (2 ^ (-(p : ℤ))) ^ 2 * s := by
  have hp1 : 1 ≤ p := by omega
  have hε1 := eps_le_1024 hp
  have hε0 : (0 : ℚ) < 2 ^ (-(p : ℤ)) := two_pos' _
  have hs0 : 0 ≤ s := by rw [hs]; exact hr.le_of_le .zero (by positivity)
  obtain ⟨hPs, tot⟩ := stageC_tot hr hp h hs hq hd
  have g1 := rnd_le hr hp1 (t := (initialised p).ccwC * s) (by simp only [initialised]; positivity)
  have g2 := rnd_le hr hp1 (t := (initialised p).resulterrbound * |q|) (by simp only [initialised]; positivity)
  have g1n : 0 ≤ rnd ((initialised p).ccwC * s) := hr.le_of_le .zero (by simp only [initialised]; positivity)
  have g2n : 0 ≤ rnd ((initialised p).resulterrbound * |q|) := hr.le_of_le .zero (by simp only [initialised]; positivity)
  have g3 := rnd_le hr hp1 (add_nonneg g1n g2n)
  have g4 := rnd_le hr hp1 (t := (initialised p).ccwB * s) (by simp only [initialised]; positivity)
  simp only [initialised] at g1 g2 g3 g4 hB hC
  set ε : ℚ := 2 ^ (-(p : ℤ)) with hε
  have k0 : (0 : ℚ) ≤ ε ^ 2 * s := by positivity
  -- the second estimate
  have q1 : |q| ≤ 21 / 10 * (ε * s) := by
    have a : (1 + ε) * (2 + 12 * ε) ≤ 21 / 10 := by nlinarith
    have := mul_le_mul_of_nonneg_right a (show 0 ≤ ε * s by positivity)
    calc |q| ≤ _ := hB.le.trans g4
      _ = (1 + ε) * (2 + 12 * ε) * (ε * s) := by ring
      _ ≤ _ := this
  have q2 : ε * |q| ≤ 21 / 10 * (ε ^ 2 * s) := by
    calc _ ≤ ε * (21 / 10 * (ε * s)) := mul_le_mul_of_nonneg_left q1 hε0.le
      _ = _ := by ring
  -- the third
  have d1 : |d| ≤ 16 * (ε ^ 2 * s) := by
    have a : (1 + ε) * (1 + ε) * (9 + 64 * ε) ≤ 92 / 10 := by
      have : (1 + ε) * (1 + ε) ≤ 1003 / 1000 := by nlinarith
      have := mul_le_mul this (show 9 + 64 * ε ≤ 9 + 64 / 1024 by linarith) (by linarith) (by norm_num)
      linarith
    have b : (1 + ε) * (1 + ε) * (3 + 8 * ε) ≤ 31 / 10 := by
      have : (1 + ε) * (1 + ε) ≤ 1003 / 1000 := by nlinarith
      have := mul_le_mul this (show 3 + 8 * ε ≤ 3 + 8 / 1024 by linarith) (by linarith) (by norm_num)
      linarith
    have a' := mul_le_mul_of_nonneg_right a k0
    have b' := mul_le_mul_of_nonneg_right b (show 0 ≤ ε * |q| by positivity)
    have c := mul_le_mul_of_nonneg_left (add_le_add g1 g2) (show 0 ≤ 1 + ε by linarith)
    calc |d| ≤ _ := (hC.le.trans g3).trans c
      _ = (1 + ε) * (1 + ε) * (9 + 64 * ε) * (ε ^ 2 * s) + (1 + ε) * (1 + ε) * (3 + 8 * ε) * (ε * |q|) := by ring
      _ ≤ 92 / 10 * (ε ^ 2 * s) + 31 / 10 * (21 / 10 * (ε ^ 2 * s)) := by linarith
      _ ≤ _ := by linarith
  have e1 : (7 + 6 * ε + 2 * ε ^ 2) * ε ^ 2 * (|x * w| + |y * u|) ≤ 15 / 2 * (ε ^ 2 * s) := by
    have tot3 : (7 + 6 * ε + 2 * ε ^ 2) * (1 + ε) ^ 2 ≤ 15 / 2 := by
      have b : (1 + ε) ^ 2 ≤ (1025 / 1024) ^ 2 := pow_le_pow_left₀ (by linarith) (by linarith) 2
      have c : 7 + 6 * ε + 2 * ε ^ 2 ≤ 7 + 8 / 1024 := by nlinarith
      calc _ ≤ (7 + 8 / 1024) * (1025 / 1024) ^ 2 := mul_le_mul c b (by positivity) (by norm_num)
        _ ≤ _ := by norm_num
    calc _ ≤ (7 + 6 * ε + 2 * ε ^ 2) * ε ^ 2 * ((1 + ε) ^ 2 * s) := mul_le_mul_of_nonneg_left hPs (by positivity)
      _ = (7 + 6 * ε + 2 * ε ^ 2) * (1 + ε) ^ 2 * (ε ^ 2 * s) := by ring
      _ ≤ _ := mul_le_mul_of_nonneg_right tot3 k0
  have e2 : ε * |d| ≤ 1 / 1024 * (16 * (ε ^ 2 * s)) := mul_le_mul hε1 d1 (abs_nonneg _) (by norm_num)
  have e3 := abs_add_le (X * W - Y * U - d) d
  rw [sub_add_cancel] at e3
  calc _ ≤ _ := e3
    _ ≤ 15 / 2 * (ε ^ 2 * s) + 9 / 4 * (21 / 10 * (ε ^ 2 * s)) + 1 / 1024 * (16 * (ε ^ 2 * s)) + 16 * (ε ^ 2 * s) := by
        linarith
    _ ≤ 29 * (ε ^ 2 * s) := by linarith
    _ = _ := by ring

/-- The last stage reads past the end of an array of four elements. -/
theorem sumLoop_ub : ∀ (n : ℕ) (Q : ℚ) (h e f : List ℚ), e.length + f.length = n → 0 < n → sumLoop rnd .ub Q h e f = .ub := by
  intro n
  induction n with
  | zero => intro _ _ _ _ _ h; omega
  | succ n ih =>
    intro Q h e f hl _
    match e, f with
    | [], [] => simp at hl
    | x :: e, [] =>
      cases e with
      | nil => simp [sumLoop, advance]
      | cons x' e => simp [sumLoop, advance, ih _ _ (x' :: e) [] (by simp at hl ⊢; omega) (by simp at hl; omega)]
    | [], y :: f =>
      cases f with
      | nil => simp [sumLoop, advance]
      | cons y' f => simp [sumLoop, advance, ih _ _ [] (y' :: f) (by simp at hl ⊢; omega) (by simp at hl; omega)]
    | x :: e, y :: f =>
      rw [sumLoop]
      split
      · cases e with
        | nil => simp [advance]
        | cons x' e => simp [advance, ih _ _ (x' :: e) (y :: f) (by simp at hl ⊢; omega) (by simp at hl; omega)]
      · cases f with
        | nil => simp [advance]
        | cons y' f => simp [advance, ih _ _ (x :: e) (y' :: f) (by simp at hl ⊢; omega) (by simp at hl; omega)]

theorem sumSecond_ub {Q : ℚ} {e f : List ℚ} (h : 0 < e.length + f.length) : sumSecond rnd .ub Q e f = .ub := by
  match e, f with
  | [], [] => simp at h
  | x :: e, [] => rw [sumSecond]; exact sumLoop_ub _ _ _ _ _ rfl h; simp
  | [], y :: f => rw [sumSecond]; exact sumLoop_ub _ _ _ _ _ rfl h; simp
  | x :: e, y :: f =>
    rw [sumSecond]
    split
    · cases e with
      | nil => simp [advance]
      | cons x' e => simp [advance, sumLoop_ub _ _ _ (x' :: e) (y :: f) rfl (by simp)]
    · cases f with
      | nil => simp [advance]
      | cons y' f => simp [advance, sumLoop_ub _ _ _ (x :: e) (y' :: f) rfl (by simp)]

theorem fastExpansionSum_ub (e f : List ℚ) : fastExpansionSum rnd .ub e f = .ub := by
  match e, f with
  | [], f => simp [fastExpansionSum]
  | x :: e, [] => simp [fastExpansionSum]
  | x :: e, y :: f =>
    rw [fastExpansionSum]
    split
    · cases e with
      | nil => simp [advance]
      | cons x' e => simp [advance, sumSecond_ub (rnd := rnd) (Q := x) (e := x' :: e) (f := y :: f) (by simp)]
    · cases f with
      | nil => simp [advance]
      | cons y' f => simp [advance, sumSecond_ub (rnd := rnd) (Q := y) (e := x :: e) (f := y' :: f) (by simp)]

theorem lastStage_ub (st : Statics) (B : List ℚ) (a b c d e f g h : ℚ) : lastStage rnd .ub st B a b c d e f g h = .ub := by
  simp [lastStage, fastExpansionSum_ub]

end Verif.Float
