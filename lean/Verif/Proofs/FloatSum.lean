import Verif.Proofs.FloatBasic
import Verif.Model.Predicates
/- `Fast_Two_Sum`, `Two_Sum` and `Two_Diff` give the error of the rounded sum exactly. -/
namespace Verif.Float
open Verif.Pred
variable {p : ℕ} {rnd : ℚ → ℚ}

/-- `v` is a number and none is nearer to `t`. -/
def Near (p : ℕ) (v t : ℚ) : Prop := IsFloat p v ∧ ∀ f, IsFloat p f → |v - t| ≤ |f - t|

theorem ToNearest.near (hr : ToNearest p rnd) (t : ℚ) : Near p (rnd t) t := ⟨hr.float t, hr.nearest t⟩

theorem Near.neg {v t : ℚ} (h : Near p v t) : Near p (-v) (-t) :=
  ⟨h.1.neg, fun f hf => by
    have := h.2 (-f) hf.neg
    rwa [show -v - -t = -(v - t) by ring, abs_neg, show f - -t = -(-f - t) by ring, abs_neg]⟩

/-- Change the rounding at one place. -/
theorem Near.update (hr : ToNearest p rnd) {v t : ℚ} (h : Near p v t) : ToNearest p (Function.update rnd t v) := by
  constructor
  · intro x
    rcases eq_or_ne x t with rfl | hx
    · simpa using h.1
    · rw [Function.update_of_ne hx]; exact hr.float x
  · intro x f hf
    rcases eq_or_ne x t with rfl | hx
    · simpa using h.2 f hf
    · rw [Function.update_of_ne hx]; exact hr.nearest x f hf

theorem Near.eq_of_float {v t : ℚ} (h : Near p v t) (ht : IsFloat p t) : v = t := by
  have := h.2 t ht
  rw [sub_self, abs_zero] at this
  exact sub_eq_zero.1 (abs_eq_zero.1 (le_antisymm this (abs_nonneg _)))

theorem eps_le_of (hp : 3 ≤ p) : (2 : ℚ) ^ (-(p : ℤ)) ≤ 1 / 8 := by
  have : (2 : ℚ) ^ (-(p : ℤ)) ≤ 2 ^ (-3 : ℤ) := zpow_le_zpow_right₀ (by norm_num) (by omega)
  refine this.trans (by norm_num)

/-- The four values of Knuth's algorithm are numbers. -/
theorem knuth (hr : ToNearest p rnd) (hp : 3 ≤ p) {a b x v : ℚ} (ha : IsFloat p a) (hb : IsFloat p b) (hx : Near p x (a + b)) (hv : Near p v (x - a)) :
    IsFloat p (x - v) ∧ IsFloat p (b - v) ∧ IsFloat p (a - (x - v)) ∧ IsFloat p (x - (a + b)) := by
  have hp1 : 1 ≤ p := by omega
  have hr1 := hx.update hr
  have e1 : Function.update rnd (a + b) x (a + b) = x := by simp
  have herr := hr1.add_err hp1 ha hb
  rw [e1] at herr
  rcases le_or_gt |b| |a| with hab | hab
  · have h1 := hr1.fast hp1 ha hb hab
    rw [e1] at h1
    have h2 := hv.eq_of_float h1
    subst h2
    refine ⟨by rwa [sub_sub_cancel], ?_, by rw [sub_sub_cancel, sub_self]; exact .zero, herr⟩
    have := herr.neg
    rwa [show -(x - (a + b)) = b - (x - a) by ring] at this
  · rcases le_or_gt |a| |x| with hax | hax
    · have hr2 := hv.update hr
      have e2 : Function.update rnd (x - a) v (x + -a) = v := by rw [← sub_eq_add_neg]; simp
      have h1 := hr2.fast hp1 hx.1 ha.neg (by rwa [abs_neg])
      have h2 := hr2.add_err hp1 hx.1 ha.neg
      rw [e2] at h1 h2
      refine ⟨?_, ?_, ?_, herr⟩
      · have := h1.neg; rwa [neg_sub] at this
      · have h3 := hr1.rel hp1 (a + b)
        have h4 := hr2.rel hp1 (x + -a)
        rw [e1] at h3
        rw [e2] at h4
        have h5 := eps_le_of hp
        set ε := (2 : ℚ) ^ (-(p : ℤ)) with hε
        have hε0 : 0 < ε := two_pos' _
        have h6 : |a + b| ≤ 2 * |b| := by linarith [abs_add_le a b]
        have h7 : |x - (a + b)| ≤ ε * (2 * |b|) := h3.trans (mul_le_mul_of_nonneg_left h6 hε0.le)
        have hB := abs_nonneg b
        have h8 : |x + -a| ≤ |b| + ε * (2 * |b|) := by
          have := abs_add_le b (x - (a + b))
          rw [show b + (x - (a + b)) = x + -a by ring] at this
          linarith
        have h9 : |v - b| ≤ |v - (x + -a)| + |x - (a + b)| := by
          have := abs_add_le (v - (x + -a)) (x - (a + b))
          rwa [show v - (x + -a) + (x - (a + b)) = v - b by ring] at this
        have h10 : ε * |x + -a| ≤ ε * (|b| + ε * (2 * |b|)) := mul_le_mul_of_nonneg_left h8 hε0.le
        have h11 := ToNearest.sterbenz hp1 hv.1 hb (by nlinarith [mul_le_mul_of_nonneg_right h5 hB, mul_le_mul_of_nonneg_left h5 (mul_nonneg hε0.le hB)])
        have := h11.neg; rwa [neg_sub] at this
      · rwa [show v - (x + -a) = a - (x - v) by ring] at h2
    · -- the sum is exact
      have hlt : |a + b| < |a| := by
        by_contra hc
        have := hr1.le_abs (x := a + b) (f := |a|) (by rcases abs_choice a with h | h <;> rw [h]; exacts [ha, ha.neg]) (abs_nonneg _) (not_lt.1 hc)
        rw [e1] at this; linarith
      have ha0 : a ≠ 0 := by
        rintro rfl; rw [abs_zero] at hlt; exact absurd (abs_nonneg _) (not_le.2 hlt)
      obtain ⟨k, k1, k2⟩ := exists_binade ha0
      have g := (ha.grid k1).add (hb.grid (k1.trans hab.le))
      have hf : IsFloat p (a + b) := isFloat_of_grid hp1 g (by
        rw [show (p : ℤ) + (k + 1 - p) = k + 1 by ring]; linarith)
      have hxe := hx.eq_of_float hf
      have hve := hv.eq_of_float (by rw [hxe, add_sub_cancel_left]; exact hb)
      have hvb : v = b := by rw [hve, hxe]; ring
      rw [hvb, hxe]
      refine ⟨by rw [add_sub_cancel_right]; exact ha, by rw [sub_self]; exact .zero, ?_, by rw [sub_self]; exact .zero⟩
      rw [add_sub_cancel_right, sub_self]; exact .zero

theorem twoSumTail_eq (hr : ToNearest p rnd) (hp : 3 ≤ p) {a b x : ℚ} (ha : IsFloat p a) (hb : IsFloat p b) (hx : Near p x (a + b)) :
    twoSumTail rnd a b x = a + b - x := by
  obtain ⟨h1, h2, h3, h4⟩ := knuth hr hp ha hb hx (hr.near (x - a))
  have h4' := h4.neg
  rw [neg_sub] at h4'
  simp only [twoSumTail]
  rw [hr.of_float h1, hr.of_float h2, hr.of_float h3,
    show a - (x - rnd (x - a)) + (b - rnd (x - a)) = a + b - x by ring, hr.of_float h4']

/-- `Two_Sum`: the rounded sum, and exactly what was lost. -/
theorem twoSum_eq (hr : ToNearest p rnd) (hp : 3 ≤ p) {a b : ℚ} (ha : IsFloat p a) (hb : IsFloat p b) :
    twoSum rnd a b = (rnd (a + b), a + b - rnd (a + b)) := by
  simp only [twoSum, twoSumTail_eq hr hp ha hb (hr.near _)]

theorem twoDiffTail_eq (hr : ToNearest p rnd) (hp : 3 ≤ p) {a b x : ℚ} (ha : IsFloat p a) (hb : IsFloat p b) (hx : Near p x (a - b)) :
    twoDiffTail rnd a b x = a - b - x := by
  have hv := (hr.near (a - x)).neg
  rw [neg_sub] at hv
  have hx' : Near p x (a + -b) := by rwa [← sub_eq_add_neg]
  obtain ⟨h1, h2, h3, h4⟩ := knuth hr hp ha hb.neg hx' hv
  have h4' := h4.neg
  rw [neg_sub] at h4'
  simp only [twoDiffTail]
  rw [show x + rnd (a - x) = x - -rnd (a - x) by ring, hr.of_float h1, show rnd (a - x) - b = -b - -rnd (a - x) by ring, hr.of_float h2, hr.of_float h3,
    show a - (x - -rnd (a - x)) + (-b - -rnd (a - x)) = a + -b - x by ring, hr.of_float h4']
  ring

/-- `Two_Diff`: the rounded difference, and exactly what was lost. -/
theorem twoDiff_eq (hr : ToNearest p rnd) (hp : 3 ≤ p) {a b : ℚ} (ha : IsFloat p a) (hb : IsFloat p b) :
    twoDiff rnd a b = (rnd (a - b), a - b - rnd (a - b)) := by
  simp only [twoDiff, twoDiffTail_eq hr hp ha hb (hr.near _)]

/-- `Fast_Two_Sum`: the rounded sum, and exactly what was lost, when the first term is not the smaller one. -/
theorem fastTwoSum_eq (hr : ToNearest p rnd) (hp : 1 ≤ p) {a b : ℚ} (ha : IsFloat p a) (hb : IsFloat p b) (hab : |b| ≤ |a|) :
    fastTwoSum rnd a b = (rnd (a + b), a + b - rnd (a + b)) := by
  have h1 := hr.fast hp ha hb hab
  have h4 := (hr.add_err hp ha hb).neg
  rw [neg_sub] at h4
  simp only [fastTwoSum]
  rw [hr.of_float h1, show b - (rnd (a + b) - a) = a + b - rnd (a + b) by ring, hr.of_float h4]

end Verif.Float
