import Verif.Proofs.FloatInit
/- The stages of `orient2d`: when one of them returns, the sign is right. -/
namespace Verif.Float
open Verif.Pred
variable {p : ℕ} {rnd : ℚ → ℚ}

theorem sameSign_of_close {d t : ℚ} (h : |t - d| < |d|) : SameSign d t := by
  rcases lt_trichotomy d 0 with hd | hd | hd
  · rw [abs_of_neg hd] at h
    have := (abs_lt.1 h).2
    exact ⟨⟨fun h => by linarith, fun h => by linarith⟩, ⟨fun _ => by linarith, fun _ => hd⟩⟩
  · rw [hd, abs_zero] at h; exact absurd (abs_nonneg _) (not_le.2 h)
  · rw [abs_of_pos hd] at h
    have := (abs_lt.1 h).1
    exact ⟨⟨fun _ => by linarith, fun _ => hd⟩, ⟨fun h => by linarith, fun h => by linarith⟩⟩

theorem SameSign.of_rnd (hr : ToNearest p rnd) (hp : 1 ≤ p) (x : ℚ) : SameSign (rnd x) x := ⟨hr.pos_iff hp, hr.neg_iff hp⟩

theorem SameSign.trans {x y z : ℚ} (h : SameSign x y) (h' : SameSign y z) : SameSign x z :=
  ⟨h.1.trans h'.1, h.2.trans h'.2⟩

theorem SameSign.eq_zero {x y : ℚ} (h : SameSign x y) : x = 0 ↔ y = 0 := by
  constructor
  · intro e
    rcases lt_trichotomy y 0 with hy | hy | hy
    · have := h.2.2 hy; linarith
    · exact hy
    · have := h.1.2 hy; linarith
  · intro e
    rcases lt_trichotomy x 0 with hy | hy | hy
    · have := h.2.1 hy; linarith
    · exact hy
    · have := h.1.1 hy; linarith

theorem SameSign.mul {x y z w : ℚ} (h : SameSign x y) (h' : SameSign z w) : SameSign (x * z) (y * w) := by
  constructor
  · rw [mul_pos_iff, mul_pos_iff, h.1, h'.1, h.2, h'.2]
  · rw [mul_neg_iff, mul_neg_iff, h.1, h'.1, h.2, h'.2]

theorem prod_near {ε X x W w : ℚ} (hε : 0 ≤ ε) (hx : |X - x| ≤ ε * |x|) (hw : |W - w| ≤ ε * |w|) :
    |X * W - x * w| ≤ (2 * ε + ε ^ 2) * |x * w| := by
  have e1 : X * W - x * w = (X - x) * w + x * (W - w) + (X - x) * (W - w) := by ring
  have t1 := abs_add_le ((X - x) * w + x * (W - w)) ((X - x) * (W - w))
  have t2 := abs_add_le ((X - x) * w) (x * (W - w))
  rw [abs_mul] at t1
  rw [abs_mul (X - x), abs_mul x] at t2
  have h1 := mul_le_mul_of_nonneg_right hx (abs_nonneg w)
  have h2 := mul_le_mul_of_nonneg_left hw (abs_nonneg x)
  have h3 := mul_le_mul hx hw (abs_nonneg _) (mul_nonneg hε (abs_nonneg _))
  rw [e1, abs_mul x w]
  nlinarith

/-- The rounded values that `orient2d` works with: the four differences and the two products. -/
structure Parts (ε X Y U W x y u w l r : ℚ) : Prop where
  hx : |X - x| ≤ ε * |x|
  hy : |Y - y| ≤ ε * |y|
  hu : |U - u| ≤ ε * |u|
  hw : |W - w| ≤ ε * |w|
  hl : |x * w - l| ≤ ε * |l|
  hr : |y * u - r| ≤ ε * |r|

namespace Parts
variable {ε X Y U W x y u w l r : ℚ}

theorem xw_le (h : Parts ε X Y U W x y u w l r) : |x * w| ≤ (1 + ε) * |l| := by
  have := abs_add_le (x * w - l) l; rw [sub_add_cancel] at this; linarith [h.hl]

theorem yu_le (h : Parts ε X Y U W x y u w l r) : |y * u| ≤ (1 + ε) * |r| := by
  have := abs_add_le (y * u - r) r; rw [sub_add_cancel] at this; linarith [h.hr]

/-- The determinant of the rounded differences is off by at most `2 ε`. -/
theorem tail_le (h : Parts ε X Y U W x y u w l r) (hε : 0 ≤ ε) :
    |(X * W - Y * U) - (x * w - y * u)| ≤ (2 * ε + ε ^ 2) * (1 + ε) * (|l| + |r|) := by
  have h1 := prod_near hε h.hx h.hw
  have h2 := prod_near hε h.hy h.hu
  have e1 : (X * W - Y * U) - (x * w - y * u) = (X * W - x * w) - (Y * U - y * u) := by ring
  have t := abs_sub (X * W - x * w) (Y * U - y * u)
  have h3 := mul_le_mul_of_nonneg_left h.xw_le (show 0 ≤ 2 * ε + ε ^ 2 by positivity)
  have h4 := mul_le_mul_of_nonneg_left h.yu_le (show 0 ≤ 2 * ε + ε ^ 2 by positivity)
  rw [e1]
  calc _ ≤ _ := t
    _ ≤ (2 * ε + ε ^ 2) * ((1 + ε) * |l|) + (2 * ε + ε ^ 2) * ((1 + ε) * |r|) := by linarith
    _ = _ := by ring

end Parts

theorem eps_le_1024 (hp : 10 ≤ p) : (2 : ℚ) ^ (-(p : ℤ)) ≤ 1 / 1024 := by
  have : (2 : ℚ) ^ (-(p : ℤ)) ≤ 2 ^ (-10 : ℤ) := pow_le (by omega)
  refine this.trans (by norm_num)

/-- Rounding a nonnegative product loses at most a factor `1 - ε`. -/
theorem rnd_ge (hr : ToNearest p rnd) (hp : 1 ≤ p) {t : ℚ} (ht : 0 ≤ t) : (1 - 2 ^ (-(p : ℤ))) * t ≤ rnd t := by
  have := hr.rel hp t
  rw [abs_of_nonneg ht] at this
  have := (_root_.abs_le.1 this).1
  linarith

theorem rnd_le (hr : ToNearest p rnd) (hp : 1 ≤ p) {t : ℚ} (ht : 0 ≤ t) : rnd t ≤ (1 + 2 ^ (-(p : ℤ))) * t := by
  have := hr.rel hp t
  rw [abs_of_nonneg ht] at this
  have := (_root_.abs_le.1 this).2
  linarith

theorem sum_le (hr : ToNearest p rnd) (hp : 1 ≤ p) {t : ℚ} (ht : 0 ≤ t) : t ≤ (1 + 2 ^ (-(p : ℤ))) * rnd t := by
  have h0 : 0 ≤ rnd t := hr.le_of_le .zero ht
  have := hr.rel' hp t
  rw [abs_of_nonneg h0] at this
  have := (_root_.abs_le.1 this).1
  linarith

/-- The first test. -/
theorem stageA (hr : ToNearest p rnd) (hp : 10 ≤ p) {X Y U W x y u w l r s : ℚ}
    (h : Parts (2 ^ (-(p : ℤ))) X Y U W x y u w l r) (hs : s = rnd (|l| + |r|)) (hl : l ≠ 0)
    (hd : |rnd (l - r)| ≥ rnd ((initialised p).ccwA * s)) : SameSign (rnd (l - r)) (X * W - Y * U) := by
  have hp1 : 1 ≤ p := by omega
  have hε1 := eps_le_1024 hp
  have h1 := hr.rel' hp1 (l - r)
  have h2 := sum_le hr hp1 (add_nonneg (abs_nonneg l) (abs_nonneg r))
  rw [← hs] at h2
  have hε0 : (0 : ℚ) < 2 ^ (-(p : ℤ)) := two_pos' _
  have h3 := h.tail_le hε0.le
  have hs0 : 0 < s := by rw [hs, hr.pos_iff hp1]; have := abs_pos.2 hl; have := abs_nonneg r; linarith
  have h4 := rnd_ge hr hp1 (t := (initialised p).ccwA * s) (by simp only [initialised]; positivity)
  have h5 := h.hl
  have h6 := h.hr
  simp only [initialised] at hd h4
  set ε : ℚ := 2 ^ (-(p : ℤ)) with hε
  set d := rnd (l - r) with hdd
  apply sameSign_of_close
  -- the distance from the determinant to `l - r`
  have t1 : |(X * W - Y * U) - d| ≤ |(X * W - Y * U) - (x * w - y * u)| + |x * w - l| + |y * u - r| + |d - (l - r)| := by
    have e1 : (X * W - Y * U) - d = ((X * W - Y * U) - (x * w - y * u)) + (x * w - l) - (y * u - r) - (d - (l - r)) := by ring
    rw [e1]
    have a1 := abs_sub (((X * W - Y * U) - (x * w - y * u)) + (x * w - l) - (y * u - r)) (d - (l - r))
    have a2 := abs_sub (((X * W - Y * U) - (x * w - y * u)) + (x * w - l)) (y * u - r)
    have a3 := abs_add_le ((X * W - Y * U) - (x * w - y * u)) (x * w - l)
    linarith
  have t2 : |(X * W - Y * U) - d| ≤ ((2 * ε + ε ^ 2) * (1 + ε) + ε) * (|l| + |r|) + ε * |d| := by
    have : ((2 * ε + ε ^ 2) * (1 + ε) + ε) * (|l| + |r|) = (2 * ε + ε ^ 2) * (1 + ε) * (|l| + |r|) + ε * |l| + ε * |r| := by ring
    linarith
  have t3 : ((2 * ε + ε ^ 2) * (1 + ε) + ε) * (|l| + |r|) ≤ ((2 * ε + ε ^ 2) * (1 + ε) + ε) * ((1 + ε) * s) :=
    mul_le_mul_of_nonneg_left h2 (by positivity)
  have t4 : (1 - ε) * ((3 + 16 * ε) * ε * s) ≤ |d| := h4.trans hd
  have t5 : (1 - ε) * ((1 - ε) * ((3 + 16 * ε) * ε * s)) ≤ (1 - ε) * |d| := mul_le_mul_of_nonneg_left t4 (by linarith)
  have t6 : ((2 * ε + ε ^ 2) * (1 + ε) + ε) * ((1 + ε) * s) < (1 - ε) * ((1 - ε) * ((3 + 16 * ε) * ε * s)) := by
    have e2 : (1 - ε) * ((1 - ε) * (3 + 16 * ε)) - ((2 + ε) * (1 + ε) + 1) * (1 + ε) = ε * (4 - 33 * ε + 15 * ε ^ 2) := by ring
    have e3 : (1 - ε) * ((1 - ε) * ((3 + 16 * ε) * ε * s)) - ((2 * ε + ε ^ 2) * (1 + ε) + ε) * ((1 + ε) * s) = ε * s * (ε * (4 - 33 * ε + 15 * ε ^ 2)) := by
      rw [← e2]; ring
    have : 0 < ε * s * (ε * (4 - 33 * ε + 15 * ε ^ 2)) := by
      have : 0 < 4 - 33 * ε + 15 * ε ^ 2 := by nlinarith
      positivity
    linarith
  linarith

/-- When the first test fails, the two products are close to each other. -/
theorem close_of_not_stageA (hr : ToNearest p rnd) (hp : 10 ≤ p) {l r s : ℚ} (hs : s = rnd (|l| + |r|))
    (hd : |rnd (l - r)| < rnd ((initialised p).ccwA * s)) : |l - r| ≤ 8 * 2 ^ (-(p : ℤ)) * |l| := by
  have hp1 : 1 ≤ p := by omega
  have hε1 := eps_le_1024 hp
  have hε0 : (0 : ℚ) < 2 ^ (-(p : ℤ)) := two_pos' _
  have hn := add_nonneg (abs_nonneg l) (abs_nonneg r)
  have hs0 : 0 ≤ s := by rw [hs]; exact hr.le_of_le .zero hn
  have h1 := rnd_le hr hp1 hn
  rw [← hs] at h1
  have h2 := rnd_le hr hp1 (t := (initialised p).ccwA * s) (by simp only [initialised]; positivity)
  have h3 := hr.rel' hp1 (l - r)
  simp only [initialised] at hd h2
  set ε : ℚ := 2 ^ (-(p : ℤ)) with hε
  have h4 : |l - r| ≤ (1 + ε) * |rnd (l - r)| := by
    have := abs_add_le (l - r - rnd (l - r)) (rnd (l - r))
    rw [sub_add_cancel] at this
    rw [abs_sub_comm] at h3
    linarith
  have h5 : |l - r| ≤ (1 + ε) * ((1 + ε) * ((3 + 16 * ε) * ε * ((1 + ε) * (|l| + |r|)))) := by
    refine h4.trans (mul_le_mul_of_nonneg_left (hd.le.trans (h2.trans ?_)) (by positivity))
    exact mul_le_mul_of_nonneg_left (mul_le_mul_of_nonneg_left h1 (by positivity)) (by positivity)
  have h6 : (1 + ε) * ((1 + ε) * ((3 + 16 * ε) * (1 + ε))) ≤ 7 / 2 := by
    have a : (1 + ε) ≤ 1025 / 1024 := by linarith
    have b : 3 + 16 * ε ≤ 3 + 1 / 64 := by linarith
    have c : (1 + ε) * (1 + ε) ≤ (1025 / 1024) * (1025 / 1024) := mul_le_mul a a (by positivity) (by positivity)
    have d : (3 + 16 * ε) * (1 + ε) ≤ (3 + 1 / 64) * (1025 / 1024) := mul_le_mul b a (by positivity) (by positivity)
    have e : ((1 + ε) * (1 + ε)) * ((3 + 16 * ε) * (1 + ε)) ≤ ((1025 / 1024) * (1025 / 1024)) * ((3 + 1 / 64) * (1025 / 1024)) :=
      mul_le_mul c d (by positivity) (by positivity)
    calc _ = ((1 + ε) * (1 + ε)) * ((3 + 16 * ε) * (1 + ε)) := by ring
      _ ≤ _ := e
      _ ≤ _ := by norm_num
  have h7 : |l - r| ≤ 7 / 2 * ε * (|l| + |r|) := by
    refine h5.trans ?_
    have := mul_le_mul_of_nonneg_right h6 (mul_nonneg hε0.le hn)
    calc _ = (1 + ε) * ((1 + ε) * ((3 + 16 * ε) * (1 + ε))) * (ε * (|l| + |r|)) := by ring
      _ ≤ _ := this
      _ = _ := by ring
  have h8 : |r| ≤ |l| + |l - r| := by
    have := abs_sub l (l - r); rwa [sub_sub_cancel] at this
  have h9 : 7 / 2 * ε * |r| ≤ 7 / 2 * ε * (|l| + |l - r|) := mul_le_mul_of_nonneg_left h8 (by positivity)
  have h10 : 7 / 2 * ε * |l - r| ≤ 7 / 2 * (1 / 1024) * |l - r| := by
    have := mul_le_mul_of_nonneg_right hε1 (abs_nonneg (l - r)); linarith
  have := abs_nonneg (l - r)
  nlinarith [mul_nonneg hε0.le (abs_nonneg l)]


/-- Half a unit in the last place of the result. -/
theorem ToNearest.half (hr : ToNearest p rnd) (hp : 1 ≤ p) {x : ℚ} {k : ℤ} (h : |rnd x| < 2 ^ (k + 1)) : |rnd x - x| ≤ 2 ^ (k - p) := by
  have h1 : |x| ≤ 2 ^ (k + 1) := by
    by_contra hc
    have := hr.le_abs (.pow hp (k + 1)) (two_pos' _).le (not_le.1 hc).le
    linarith
  have := hr.err_le hp h1
  rw [show k + 1 - (p : ℤ) = (k - p) + 1 by ring, pow_succ'] at this
  linarith

theorem IsFloat.sub_of_add {x : ℚ} {a b : ℚ} (h : IsFloat p (x - (a + b))) : IsFloat p (a + b - x) := by
  have := h.neg; rwa [neg_sub] at this

/-- The difference of two pairs that are close: `Two_Two_Diff` gives it exactly, and `estimate` up to a small relative
error. -/
theorem estimate_close (hr : ToNearest p rnd) (hp : 10 ≤ p) {a1 a0 b1 b0 : ℚ} (fa1 : IsFloat p a1) (fa0 : IsFloat p a0) (fb1 : IsFloat p b1)
    (fb0 : IsFloat p b0) (ha : |a0| ≤ 2 ^ (-(p : ℤ)) * |a1|) (hb : |b0| ≤ 2 ^ (-(p : ℤ)) * |b1|) (ha1 : a1 ≠ 0)
    (hab : |a1 - b1| ≤ 8 * 2 ^ (-(p : ℤ)) * |a1|) :
    ∃ x0 x1 x2 x3, twoTwoDiff rnd (a1, a0) (b1, b0) = (x0, x1, x2, x3) ∧
      |estimate rnd [x0, x1, x2, x3] - (a1 + a0 - b1 - b0)| ≤ 9 / 4 * 2 ^ (-(p : ℤ)) * |estimate rnd [x0, x1, x2, x3]| := by
  have hp1 : 1 ≤ p := by omega
  have hp3 : 3 ≤ p := by omega
  have hε1 := eps_le_1024 hp
  have hε0 : (0 : ℚ) < 2 ^ (-(p : ℤ)) := two_pos' _
  simp only [twoTwoDiff, twoOneDiff]
  rw [twoDiff_eq hr hp3 fa0 fb0]
  simp only
  set i0 := rnd (a0 - b0) with hi0
  have fi0 : IsFloat p i0 := hr.float _
  rw [twoSum_eq hr hp3 fa1 fi0]
  simp only
  set j := rnd (a1 + i0) with hj
  have fj : IsFloat p j := hr.float _
  have fc0 : IsFloat p (a1 + i0 - j) := (hr.add_err hp1 fa1 fi0).sub_of_add
  rw [twoDiff_eq hr hp3 fc0 fb1]
  simp only
  set i1 := rnd (a1 + i0 - j - b1) with hi1
  have fi1 : IsFloat p i1 := hr.float _
  rw [twoSum_eq hr hp3 fj fi1]
  refine ⟨_, _, _, _, rfl, ?_⟩
  -- sizes
  have hm : 0 < |a1| := abs_pos.2 ha1
  have hε : ∀ z : ℚ, 0 ≤ z → 2 ^ (-(p : ℤ)) * z ≤ 1 / 1024 * z := fun z hz => mul_le_mul_of_nonneg_right hε1 hz
  have r0 := hr.rel' hp1 (a0 - b0)
  have r0' := hr.rel hp1 (a0 - b0)
  have c0i := hr.nearest (a1 + i0) a1 fa1
  have x1c := hr.nearest (a1 + i0 - j - b1) (-b1) fb1.neg
  rw [← hi0] at r0 r0'
  rw [← hj, show a1 - (a1 + i0) = -i0 by ring, abs_neg] at c0i
  rw [← hi1, show -b1 - (a1 + i0 - j - b1) = j - (a1 + i0) by ring] at x1c
  have hjh := fun k => hr.half hp1 (x := a1 + i0) (k := k)
  have hih := fun k => hr.half hp1 (x := a1 + i0 - j - b1) (k := k)
  rw [← hj] at hjh
  rw [← hi1] at hih
  set ε : ℚ := 2 ^ (-(p : ℤ)) with hεd
  have hb1 : |b1| ≤ (1 + 8 * ε) * |a1| := by
    have := abs_sub a1 (a1 - b1); rw [sub_sub_cancel] at this; linarith
  have hb1' : (1 - 8 * ε) * |a1| ≤ |b1| := by
    have := abs_add_le (a1 - b1) b1; rw [sub_add_cancel] at this; linarith
  have hm1 := hε |a1| hm.le
  have hεm : 0 < ε * |a1| := mul_pos hε0 hm
  have hm2 : ε * (ε * |a1|) ≤ 1 / 1024 * (ε * |a1|) := hε _ hεm.le
  have hd0 : |a0 - b0| ≤ 21 / 10 * (ε * |a1|) := by
    have h1 := abs_sub a0 b0
    have h2 : ε * |b1| ≤ ε * ((1 + 8 * ε) * |a1|) := mul_le_mul_of_nonneg_left hb1 hε0.le
    have h3 : ε * ((1 + 8 * ε) * |a1|) = ε * |a1| + 8 * (ε * (ε * |a1|)) := by ring
    linarith
  have hi0m : |i0| ≤ 22 / 10 * (ε * |a1|) := by
    have h1 := abs_add_le (i0 - (a0 - b0)) (a0 - b0)
    rw [sub_add_cancel] at h1
    have h2 := hε |a0 - b0| (abs_nonneg _)
    linarith
  have hx0 : |a0 - b0 - i0| ≤ 21 / 10 * (ε * (ε * |a1|)) := by
    rw [abs_sub_comm]
    have := mul_le_mul_of_nonneg_left hd0 hε0.le
    linarith
  have hc0 : |a1 + i0 - j| ≤ 22 / 10 * (ε * |a1|) := by rw [abs_sub_comm]; linarith
  have hx1 : |a1 + i0 - j - b1 - i1| ≤ 22 / 10 * (ε * |a1|) := by
    rw [abs_sub_comm]; rw [abs_sub_comm] at hc0; linarith
  have hjm : 1 / 2 * |a1| ≤ |j| := by
    have h1 := abs_add_le (j) (a1 + i0 - j)
    have h2 := abs_sub (a1 + i0) i0
    rw [add_sub_cancel_right] at h2
    rw [add_sub_cancel] at h1
    linarith
  have him : 1 / 2 * |a1| ≤ |i1| := by
    have e1 : b1 = -i1 + (a1 + i0 - j) - (a1 + i0 - j - b1 - i1) := by ring
    have h1 := abs_sub (-i1 + (a1 + i0 - j)) (a1 + i0 - j - b1 - i1)
    rw [← e1] at h1
    have h2 := abs_add_le (-i1) (a1 + i0 - j)
    rw [abs_neg] at h2
    have h3 : 8 * ε * |a1| = 8 * (ε * |a1|) := by ring
    linarith
  have hY : |j + i1| ≤ 13 * (ε * |a1|) := by
    have e1 : j + i1 = (a1 - b1) + i0 - (a1 + i0 - j - b1 - i1) := by ring
    have h1 := abs_sub ((a1 - b1) + i0) (a1 + i0 - j - b1 - i1)
    rw [← e1] at h1
    have h2 := abs_add_le (a1 - b1) i0
    have h3 : 8 * ε * |a1| = 8 * (ε * |a1|) := by ring
    linarith
  -- the common binade
  have hj0 : j ≠ 0 := by intro h; rw [h, abs_zero] at hjm; linarith
  have hi10 : i1 ≠ 0 := by intro h; rw [h, abs_zero] at him; linarith
  obtain ⟨kj, j1, j2⟩ := exists_binade hj0
  obtain ⟨ki, i1l, i2⟩ := exists_binade hi10
  have hjh := hjh kj j2
  have hih := hih ki i2
  obtain ⟨k, hk1, hk2, hk3⟩ : ∃ k, k ≤ kj ∧ k ≤ ki ∧ (k = kj ∨ k = ki) := ⟨min kj ki, min_le_left _ _, min_le_right _ _, min_choice _ _⟩
  have gY : Grid (k + 1 - p) (j + i1) := ((fj.grid j1).mono (by omega)).add ((fi1.grid i1l).mono (by omega))
  have hkm : 1 / 2 * |a1| < 2 ^ (k + 1) := by
    rcases hk3 with h | h <;> rw [h] <;> linarith
  have hx1k : |a1 + i0 - j - b1 - i1| ≤ 2 ^ (k - p) := by
    rcases hk3 with h | h <;> rw [h, abs_sub_comm]
    · exact x1c.trans hjh
    · exact hih
  have e2 : (2 : ℚ) ^ (k + 1 - p) = 2 * 2 ^ (k - p) := by rw [← pow_succ']; congr 1; ring
  have e3 : (2 : ℚ) ^ (k + 1 - p) = 2 ^ (k + 1) * ε := by
    rw [hεd, ← zpow_add₀ (by norm_num)]; rfl
  have fY : IsFloat p (j + i1) := isFloat_of_grid hp1 gY (by
    rw [show (p : ℤ) + (k + 1 - p) = k + 1 by ring]; linarith)
  have eV : a1 + a0 - b1 - b0 = (a0 - b0 - i0) + (a1 + i0 - j - b1 - i1) + (j + i1) := by ring
  rw [hr.of_float fY, sub_self]
  simp only [estimate, List.foldl_cons, List.foldl_nil, add_zero]
  rw [eV]
  generalize a0 - b0 - i0 = x0 at hx0 ⊢
  generalize a1 + i0 - j - b1 - i1 = x1 at hx1 hx1k ⊢
  generalize j + i1 = Y at hY gY fY ⊢
  have fq : rnd (rnd (x0 + x1)) = rnd (x0 + x1) := hr.of_float (hr.float _)
  rw [fq]
  have q1 := hr.rel' hp1 (x0 + x1)
  have q1' := hr.rel hp1 (x0 + x1)
  have q2 := hr.rel' hp1 (rnd (x0 + x1) + Y)
  rw [← hεd] at q1 q1' q2
  rcases eq_or_ne Y 0 with hY0 | hY0
  · rw [hY0, add_zero, fq, add_zero]
    have := mul_nonneg hε0.le (abs_nonneg (rnd (x0 + x1)))
    linarith
  · have hYg := gY.le_abs hY0
    have hYx1 : 2 * |x1| ≤ |Y| := by linarith
    have hYx0 : |x0| ≤ 42 / 10 * (ε * |Y|) := by
      have h1 : ε * (1 / 2 * |a1|) ≤ |Y| := by
        have := mul_le_mul_of_nonneg_left hkm.le hε0.le
        linarith
      have h2 := mul_le_mul_of_nonneg_left h1 hε0.le
      have h3 : ε * (ε * (1 / 2 * |a1|)) = 1 / 2 * (ε * (ε * |a1|)) := by ring
      linarith
    generalize rnd (x0 + x1) = q at q1 q1' q2 ⊢
    have hYp := abs_nonneg Y
    have hεY := hε |Y| hYp
    have h1 := abs_add_le x0 x1
    have h2 := hε |x0 + x1| (abs_nonneg _)
    have hq : |q| ≤ 52 / 100 * |Y| := by
      have := abs_add_le (q - (x0 + x1)) (x0 + x1)
      rw [sub_add_cancel] at this
      linarith
    generalize rnd (q + Y) = d at q2 ⊢
    have h3 : |Y| ≤ |q + Y| + |q| := by
      have := abs_sub (q + Y) q; rwa [add_sub_cancel_left] at this
    have h4 : |q + Y| ≤ |d| + |d - (q + Y)| := by
      have := abs_sub d (d - (q + Y)); rwa [sub_sub_cancel] at this
    have h5 := hε |d| (abs_nonneg _)
    have h6 : |q| ≤ 5 / 4 * |d| := by linarith
    have h7 : ε * |q| ≤ ε * (5 / 4 * |d|) := mul_le_mul_of_nonneg_left h6 hε0.le
    have e4 : d - (x0 + x1 + Y) = (d - (q + Y)) + (q - (x0 + x1)) := by ring
    have h8 := abs_add_le (d - (q + Y)) (q - (x0 + x1))
    rw [e4]
    linarith

end Verif.Float
