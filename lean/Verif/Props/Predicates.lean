import Verif.Proofs.FloatLast
import Verif.Proofs.FloatInit
import Verif.Proofs.FloatRne
/-
C86: the sign of `orient2d` is the orientation of the three points, whatever the rounding errors.
C87: the error-free operations under it: the rounded result and the error that is computed with it are together exact.

`rnd` is rounding to nearest in `p` bits. For IEEE doubles `p = 53`; `rne` shows that such a rounding exists.
-/
namespace Verif.Props
open Verif.Pred Verif.Float

variable {p : ℕ} {rnd : ℚ → ℚ}

/-- The coordinates of a point are floating point numbers. -/
def FloatPt (p : ℕ) (a : ℚ × ℚ) : Prop := IsFloat p a.1 ∧ IsFloat p a.2

/-! ### C87 -/

/-- `Two_Sum`: for all numbers `a` and `b`, the rounded sum and a number that is exactly its error. -/
theorem C87_two_sum (hr : ToNearest p rnd) (hp : 3 ≤ p) {a b : ℚ} (ha : IsFloat p a) (hb : IsFloat p b) :
    (twoSum rnd a b).1 = rnd (a + b) ∧ (twoSum rnd a b).1 + (twoSum rnd a b).2 = a + b := by
  rw [twoSum_eq hr hp ha hb]; exact ⟨rfl, by ring⟩

/-- `Two_Diff`: the rounded difference and its error. -/
theorem C87_two_diff (hr : ToNearest p rnd) (hp : 3 ≤ p) {a b : ℚ} (ha : IsFloat p a) (hb : IsFloat p b) :
    (twoDiff rnd a b).1 = rnd (a - b) ∧ (twoDiff rnd a b).1 + (twoDiff rnd a b).2 = a - b := by
  rw [twoDiff_eq hr hp ha hb]; exact ⟨rfl, by ring⟩

/-- `Fast_Two_Sum`: three operations do when `b` is not larger than `a`. -/
theorem C87_fast_two_sum (hr : ToNearest p rnd) (hp : 1 ≤ p) {a b : ℚ} (ha : IsFloat p a) (hb : IsFloat p b) (hab : |b| ≤ |a|) :
    (fastTwoSum rnd a b).1 = rnd (a + b) ∧ (fastTwoSum rnd a b).1 + (fastTwoSum rnd a b).2 = a + b := by
  rw [fastTwoSum_eq hr hp ha hb hab]; exact ⟨rfl, by ring⟩

/-- `Two_Product`, after `exactinit`: the rounded product and its error. -/
theorem C87_two_product (hr : ToEven p rnd) (hp : 6 ≤ p) {fuel : ℕ} (hf : p ≤ fuel) :
    ∃ st, exactinit rnd fuel = some st ∧ ∀ a b, IsFloat p a → IsFloat p b →
      (twoProduct rnd st a b).1 = rnd (a * b) ∧ (twoProduct rnd st a b).1 + (twoProduct rnd st a b).2 = a * b := by
  refine ⟨_, exactinit_eq hr hp hf, fun a b ha hb => ?_⟩
  rw [(twoProduct_eq hr.toToNearest (by omega) rfl ha hb).1]; exact ⟨rfl, by ring⟩

/-- Without `exactinit`, as in the library, the same macro always gives an error of zero: the two parts are together exact
only for products that need no rounding. -/
theorem C87_two_product_uninitialised_fails (hr : ToNearest p rnd) {a b : ℚ} (ha : IsFloat p a) (hb : IsFloat p b) :
    twoProduct rnd atStart a b = (rnd (a * b), 0) ∧
      (¬ IsFloat p (a * b) → (twoProduct rnd atStart a b).1 + (twoProduct rnd atStart a b).2 ≠ a * b) := by
  have h : twoProduct rnd atStart a b = (rnd (a * b), 0) := by
    simp [twoProduct, split, atStart, hr.zero, hr.of_float ha, hr.of_float hb, hr.of_float ha.neg, hr.of_float hb.neg]
  refine ⟨h, fun hn he => hn ?_⟩
  rw [h, add_zero] at he
  exact he ▸ hr.float _

/-- A product that needs rounding: the square of `1 + 2 ^ (1 - p)`. -/
example : IsFloat 53 (1 + 2 ^ (-52 : ℤ)) ∧ ¬ IsFloat 53 ((1 + 2 ^ (-52 : ℤ)) * (1 + 2 ^ (-52 : ℤ))) := by
  refine ⟨⟨2 ^ 52 + 1, -52, by norm_num, by norm_num⟩, fun h => ?_⟩
  have g := h.grid (k := 0) (by norm_num [abs_of_pos])
  have g1 : Grid (0 + 1 - (53 : ℕ)) ((1 : ℚ) + 2 * 2 ^ (-52 : ℤ)) := ⟨2 ^ 52 + 2, by norm_num⟩
  have := (g.sub g1).eq_zero (by norm_num [abs_of_pos])
  norm_num at this

/-- The sum of an expansion of at most twelve numbers and one of numbers with an empty place between them, sixteen in all:
`fast_expansion_sum_zeroelim` returns numbers that do not overlap either, no more of them than it was given, whose sum is the
exact sum of all it was given, and the last of them has the sign of that sum. The number read past the end of an array does not
matter. -/
theorem C87_expansion_sum (hr : ToNearest p rnd) (hp : 20 ≤ p) (v : ℚ) {e f : List ℚ} (he : ∀ x ∈ e, IsFloat p x) (hf : ∀ x ∈ f, IsFloat p x)
    (he0 : e ≠ []) (hf0 : f ≠ []) (heb : e.Pairwise Below) (hff : f.Pairwise Far) (hle : e.length ≤ 12) (hl : e.length + f.length ≤ 16) :
    ∃ h, fastExpansionSum rnd (.ok v) e f = .ok h ∧ h.sum = e.sum + f.sum ∧ (∀ x ∈ h, IsFloat p x) ∧ h.Pairwise Below ∧
      h.length ≤ e.length + f.length ∧ ∃ x ∈ h.getLast?, SameSign x (e.sum + f.sum) := by
  obtain ⟨h, h1, h2, h3, h4⟩ := fastExpansionSum_ok hr hp v he0 he heb ⟨hf, hff⟩ hf0 hle hl
  obtain ⟨x, k1, k2⟩ := h3.sign
  refine ⟨h, h1, h2, h3.float, h3.below, h4, x, ?_, h2 ▸ k2⟩
  unfold last rd at k1
  rw [List.getLast?_eq_getElem?]
  cases hx : h[h.length - 1]? <;> rw [hx] at k1 <;> cases k1
  rfl

/-! ### C86 -/

/-- What `exactinit` computes, for every precision: the unit roundoff `2 ^ (-p)`, `2 ^ ⌈p / 2⌉ + 1` and the error bounds. -/
theorem C86_exactinit (hr : ToEven p rnd) (hp : 6 ≤ p) {fuel : ℕ} (hf : p ≤ fuel) :
    exactinit rnd fuel = some
      { splitter := 2 ^ ((p + 1) / 2) + 1
        epsilon := 2 ^ (-(p : ℤ))
        resulterrbound := (3 + 8 * 2 ^ (-(p : ℤ))) * 2 ^ (-(p : ℤ))
        ccwA := (3 + 16 * 2 ^ (-(p : ℤ))) * 2 ^ (-(p : ℤ))
        ccwB := (2 + 12 * 2 ^ (-(p : ℤ))) * 2 ^ (-(p : ℤ))
        ccwC := (9 + 64 * 2 ^ (-(p : ℤ))) * 2 ^ (-(p : ℤ)) * 2 ^ (-(p : ℤ)) } :=
  exactinit_eq hr hp hf

/-- After `exactinit`, for all points with floating point coordinates: whenever `orient2d` returns, its result is positive,
negative or zero exactly as the orientation of the points is. Missing: that it always returns
(`C86_orient2d_decides_partial`, `C86_collinear_fails`). -/
theorem C86_orient2d_partial (hr : ToEven p rnd) (hp : 10 ≤ p) {fuel : ℕ} (hf : p ≤ fuel) :
    ∃ st, exactinit rnd fuel = some st ∧ ∀ a b c, FloatPt p a → FloatPt p b → FloatPt p c →
      ∀ r, orient2d rnd .ub st a b c = .ok r → SameSign r (orientation a b c) := by
  refine ⟨_, exactinit_eq hr (by omega) hf, fun a b c ha hb hc r h => ?_⟩
  rcases orient2d_cases hr.toToNearest hp .ub ha hb hc with ⟨r', h1, h2, _⟩ | ⟨_, _, h1⟩
  · rw [h] at h1; cases h1; exact h2
  · rw [h1, lastStage_ub] at h; cases h

/-- After `exactinit`, `orient2d` returns, with the right sign, for all points whose coordinate differences are floating
point numbers, and for all points but those with an area of less than about `30 ε²` of the products it is the difference
of. -/
theorem C86_orient2d_decides_partial (hr : ToEven p rnd) (hp : 10 ≤ p) {fuel : ℕ} (hf : p ≤ fuel) :
    ∃ st, exactinit rnd fuel = some st ∧ ∀ a b c, FloatPt p a → FloatPt p b → FloatPt p c →
      (IsFloat p (a.1 - c.1) ∧ IsFloat p (a.2 - c.2) ∧ IsFloat p (b.1 - c.1) ∧ IsFloat p (b.2 - c.2)) ∨
      30 * (2 ^ (-(p : ℤ))) ^ 2 * (|(a.1 - c.1) * (b.2 - c.2)| + |(a.2 - c.2) * (b.1 - c.1)|) < |orientation a b c| →
      ∃ r, orient2d rnd .ub st a b c = .ok r ∧ SameSign r (orientation a b c) := by
  refine ⟨_, exactinit_eq hr (by omega) hf, fun a b c ha hb hc h => ?_⟩
  rcases orient2d_cases hr.toToNearest hp .ub ha hb hc with ⟨r', h1, h2, _⟩ | ⟨h1, h2, _⟩
  · exact ⟨r', h1, h2⟩
  · rcases h with ⟨k1, k2, k3, k4⟩ | h
    · exact absurd ⟨hr.of_float k1, hr.of_float k2, hr.of_float k3, hr.of_float k4⟩ h1
    · linarith

/-- The full statement fails even after `exactinit`: for all points on one line, not on a line with `c` parallel to an
axis and not with exact differences, `orient2d` goes to its last stage, where `fast_expansion_sum_zeroelim` reads `e[4]`
and `f[4]` of arrays of four elements. -/
theorem C86_collinear_fails (hr : ToNearest p rnd) (hp : 10 ≤ p) {a b c : ℚ × ℚ} (ha : FloatPt p a) (hb : FloatPt p b) (hc : FloatPt p c)
    (h0 : orientation a b c = 0) (hx : a.1 ≠ c.1) (hy : b.2 ≠ c.2)
    (hne : ¬ (IsFloat p (a.1 - c.1) ∧ IsFloat p (a.2 - c.2) ∧ IsFloat p (b.1 - c.1) ∧ IsFloat p (b.2 - c.2))) :
    orient2d rnd .ub (initialised p) a b c = .ub := by
  rcases orient2d_cases hr hp .ub ha hb hc with ⟨r, h1, h2, h3⟩ | ⟨_, _, h1⟩
  · exfalso
    have r0 : r = 0 := h2.eq_zero.2 h0
    rcases h3 with h3 | h3 | ⟨k1, k2, k3, k4⟩
    · exact h3 r0
    · exact mul_ne_zero (sub_ne_zero.2 hx) (sub_ne_zero.2 hy) h3
    · exact hne ⟨k1 ▸ hr.float _, k2 ▸ hr.float _, k3 ▸ hr.float _, k4 ▸ hr.float _⟩
  · rw [h1, lastStage_ub]

/-- That read is all that is wrong with it. After `exactinit`, and if a read of the element after the last of an array gives
some number, whichever it is, `orient2d` returns for all points with floating point coordinates, and its result is positive,
negative or zero exactly as the orientation of the points is. -/
theorem C86_orient2d_padded (hr : ToEven p rnd) (hp : 20 ≤ p) {fuel : ℕ} (hf : p ≤ fuel) :
    ∃ st, exactinit rnd fuel = some st ∧ ∀ a b c, FloatPt p a → FloatPt p b → FloatPt p c →
      ∀ v, ∃ r, orient2d rnd (.ok v) st a b c = .ok r ∧ SameSign r (orientation a b c) := by
  refine ⟨_, exactinit_eq hr (by omega) hf, fun a b c ha hb hc v => ?_⟩
  have hn := hr.toToNearest
  have tail : ∀ {x y : ℚ}, IsFloat p x → IsFloat p y → IsFloat p (x - y - rnd (x - y)) := fun hx hy => by
    simpa [← sub_eq_add_neg] using (hn.add_err (by omega) hx hy.neg).neg
  rcases orient2d_cases hn (by omega) (.ok v) ha hb hc with ⟨r, h1, h2, _⟩ | ⟨_, _, h1⟩
  · exact ⟨r, h1, h2⟩
  · obtain ⟨r, h2, h3⟩ := lastStage_ok hr hp v (st := initialised p) rfl (hn.float (a.1 - c.1)) (hn.float (a.2 - c.2)) (hn.float (b.1 - c.1)) (hn.float (b.2 - c.2))
      (tail ha.1 hc.1) (tail ha.2 hc.2) (tail hb.1 hc.1) (tail hb.2 hc.2)
    refine ⟨r, h1.trans h2, ?_⟩
    have e : ∀ x : ℚ, rnd x + (x - rnd x) = x := fun x => by ring
    simpa only [e, orientation] using h3

/-- In the library, where nothing calls `exactinit`, `orient2d` is the determinant evaluated in floating point, for all points
and every rounding: the tests against the error bounds always succeed, since the bounds are zero. -/
theorem C86_uninitialised_orient2d (h0 : rnd 0 = 0) (past : Res ℚ) (a b c : ℚ × ℚ) :
    orient2d rnd past atStart a b c = .ok (rnd (rnd (rnd (a.1 - c.1) * rnd (b.2 - c.2)) - rnd (rnd (a.2 - c.2) * rnd (b.1 - c.1)))) := by
  have h : ∀ d : ℚ, (d ≥ 0 ∨ -d ≥ 0) := fun d => by
    rcases le_total 0 d with h | h
    · exact Or.inl h
    · exact Or.inr (by linarith)
  simp only [orient2d, atStart, zero_mul, h0, h, if_true]
  split_ifs <;> rfl

/-- A number that is strictly nearest to `t`. -/
theorem rnd_eq_of_near (hr : ToNearest p rnd) (hp : 1 ≤ p) {t f : ℚ} {k : ℤ} (hf : Grid (k + 1 - p) f) (hf' : |f| ≤ 2 ^ (k + 1))
    (ht : 2 ^ k ≤ t) (hd : |f - t| < 2 ^ (k + 1 - p) / 2) : rnd t = f := by
  have g1 : Grid (k + 1 - p) (rnd t) := by
    refine (hr.float t).grid ?_
    exact (hr.le_of_le (IsFloat.pow hp k) ht).trans (le_abs_self _)
  have hff : IsFloat p f := isFloat_of_grid hp hf (by rwa [show (p : ℤ) + (k + 1 - p) = k + 1 by ring])
  have h1 := hr.nearest t f hff
  have h2 := abs_sub (rnd t - t) (f - t)
  rw [sub_sub_sub_cancel_right] at h2
  exact sub_eq_zero.1 ((g1.sub hf).eq_zero (by linarith))

/-- In the library the claim fails, for every precision and every rounding to nearest: there are points in clockwise order
for which `orient2d` returns a positive number. -/
theorem C86_wrong_sign_fails (hr : ToNearest p rnd) (hp : 4 ≤ p) (past : Res ℚ) :
    ∃ a b c : ℚ × ℚ, FloatPt p a ∧ FloatPt p b ∧ FloatPt p c ∧ orientation a b c < 0 ∧
      ∃ r, orient2d rnd past atStart a b c = .ok r ∧ 0 < r := by
  have hp1 : 1 ≤ p := by omega
  obtain ⟨η, hη⟩ : ∃ η : ℚ, η = 2 ^ (0 + 1 - p : ℤ) := ⟨_, rfl⟩
  have hη0 : 0 < η := by rw [hη]; exact two_pos' _
  have hη1 : η ≤ 1 / 8 := by
    have : (2 : ℚ) ^ (0 + 1 - p : ℤ) ≤ 2 ^ (-3 : ℤ) := zpow_le_zpow_right₀ (by norm_num) (by omega)
    rw [hη]; exact this.trans (by norm_num)
  have f8 : ∀ m : ℤ, |m| < 2 ^ 4 → IsFloat p (m * (η / 8)) := by
    intro m hm
    refine ⟨m, 0 + 1 - p - 3, lt_of_lt_of_le hm (pow_le_pow_right₀ (by norm_num) hp), ?_⟩
    rw [hη, zpow_sub₀ (by norm_num) (0 + 1 - p : ℤ) 3]; norm_num
  have g0 : ∀ m : ℤ, Grid (0 + 1 - p) (m * η) := fun m => ⟨m, by rw [hη]⟩
  have g1 : Grid (0 + 1 - p) 1 := by simpa using Grid.pow (e := 0) (f := 0 + 1 - p) (by omega)
  have gη : Grid (0 + 1 - p) (1 + η) := g1.add (by simpa using g0 1)
  have one : ∀ t : ℚ, 1 ≤ t → t < 1 + η / 2 → rnd t = 1 := by
    intro t h1 h2
    refine rnd_eq_of_near hr hp1 (k := 0) g1 (by norm_num) (by simpa using h1) ?_
    rw [← hη, abs_of_nonpos (by linarith)]; linarith
  have oneη : ∀ t : ℚ, 1 + η / 2 < t → t < 1 + η * (3 / 2) → rnd t = 1 + η := by
    intro t h1 h2
    refine rnd_eq_of_near hr hp1 (k := 0) gη (by rw [abs_of_pos (by linarith)]; norm_num; linarith) (by norm_num; linarith) ?_
    rw [← hη, abs_lt]; constructor <;> linarith
  have fη : rnd η = η := hr.of_float (by rw [hη]; exact IsFloat.pow hp1 _)
  have fm1 : IsFloat p (-1) := by simpa using (IsFloat.pow hp1 0).neg
  refine ⟨(5 * (η / 8), 3 * (η / 8)), (3 * (η / 8), 0), (-1, -1), ⟨?_, ?_⟩, ⟨?_, .zero⟩, ⟨fm1, fm1⟩, ?_, η, ?_, hη0⟩
  · simpa using f8 5 (by norm_num)
  · simpa using f8 3 (by norm_num)
  · simpa using f8 3 (by norm_num)
  · have e : orientation (5 * (η / 8), 3 * (η / 8)) (3 * (η / 8), 0) (-1, -1) = -(η / 8) - 9 / 64 * (η * η) := by simp only [orientation]; ring
    rw [e]; have := mul_pos hη0 hη0; linarith
  · rw [C86_uninitialised_orient2d hr.zero]
    have e1 : rnd (5 * (η / 8) - -1) = 1 + η := oneη _ (by linarith) (by linarith)
    have e2 : rnd (3 * (η / 8) - -1) = 1 := one _ (by linarith) (by linarith)
    have e3 : rnd (0 - -1) = 1 := one _ (by norm_num) (by linarith)
    have e4 : rnd ((1 + η) * 1) = 1 + η := oneη _ (by linarith) (by linarith)
    have e5 : rnd (1 * 1) = 1 := one _ (by norm_num) (by linarith)
    simp only [e1, e2, e3, e4, e5]
    rw [show 1 + η - 1 = η by ring, fη]

/-- And there are points that are not on one line for which `orient2d` returns zero. `computeCircumcenter` then divides by
zero. -/
theorem C86_flat_fails (hr : ToNearest p rnd) (hp : 4 ≤ p) (past : Res ℚ) :
    ∃ a b c : ℚ × ℚ, FloatPt p a ∧ FloatPt p b ∧ FloatPt p c ∧ 0 < orientation a b c ∧
      orient2d rnd past atStart a b c = .ok 0 := by
  have hp1 : 1 ≤ p := by omega
  obtain ⟨η, hη⟩ : ∃ η : ℚ, η = 2 ^ (0 + 1 - p : ℤ) := ⟨_, rfl⟩
  have hη0 : 0 < η := by rw [hη]; exact two_pos' _
  have hη1 : η ≤ 1 / 8 := by
    have : (2 : ℚ) ^ (0 + 1 - p : ℤ) ≤ 2 ^ (-3 : ℤ) := zpow_le_zpow_right₀ (by norm_num) (by omega)
    rw [hη]; exact this.trans (by norm_num)
  have g0 : ∀ m : ℤ, Grid (0 + 1 - p) (m * η) := fun m => ⟨m, by rw [hη]⟩
  have g1 : Grid (0 + 1 - p) 1 := by simpa using Grid.pow (e := 0) (f := 0 + 1 - p) (by omega)
  have flt : ∀ f : ℚ, Grid (0 + 1 - p) f → |f| ≤ 2 → IsFloat p f := by
    intro f h1 h2
    exact isFloat_of_grid hp1 h1 (by rw [show (p : ℤ) + (0 + 1 - p) = 1 by ring]; simpa using h2)
  have f1 : IsFloat p 1 := flt 1 g1 (by norm_num)
  have fa : IsFloat p (1 + η) := flt _ (g1.add (by simpa using g0 1)) (by rw [abs_of_pos (by linarith)]; linarith)
  have gb : Grid (0 + 1 - p) (1 + 2 * η) := g1.add (by simpa using g0 2)
  have fb : IsFloat p (1 + 2 * η) := flt _ gb (by rw [abs_of_pos (by linarith)]; linarith)
  have hsq : 0 < η * η := mul_pos hη0 hη0
  have hsq' : η * η ≤ η * (1 / 8) := mul_le_mul_of_nonneg_left hη1 hη0.le
  refine ⟨(1 + η, 1), (1 + 2 * η, 1 + η), (0, 0), ⟨fa, f1⟩, ⟨fb, fa⟩, ⟨.zero, .zero⟩, ?_, ?_⟩
  · have e : orientation (1 + η, 1) (1 + 2 * η, 1 + η) (0, 0) = η * η := by simp only [orientation]; ring
    rw [e]; exact hsq
  · rw [C86_uninitialised_orient2d hr.zero]
    have e4 : rnd ((1 + η) * (1 + η)) = 1 + 2 * η := by
      refine rnd_eq_of_near hr hp1 (k := 0) gb (by rw [abs_of_pos (by linarith)]; norm_num; linarith) ?_ ?_
      · have : (1 + η) * (1 + η) = 1 + 2 * η + η * η := by ring
        rw [this]; norm_num; linarith
      · have : 1 + 2 * η - (1 + η) * (1 + η) = -(η * η) := by ring
        rw [← hη, this, abs_neg, abs_of_pos hsq]; linarith
    simp only [sub_zero, hr.of_float fa, hr.of_float f1, hr.of_float fb, e4, one_mul, sub_self, hr.zero]

/-! ### The hypotheses are met -/

/-- IEEE double precision without its bounds on the exponent. -/
example : ToEven 53 (rne 53) := rne_toEven (by norm_num)

/-- The points of `C86_collinear_fails`: on the diagonal, with differences of more than 53 bits. -/
theorem diagonal_case : ∃ a b c : ℚ × ℚ, FloatPt 53 a ∧ FloatPt 53 b ∧ FloatPt 53 c ∧ orientation a b c = 0 ∧ a.1 ≠ c.1 ∧ b.2 ≠ c.2 ∧
    ¬ (IsFloat 53 (a.1 - c.1) ∧ IsFloat 53 (a.2 - c.2) ∧ IsFloat 53 (b.1 - c.1) ∧ IsFloat 53 (b.2 - c.2)) := by
  have f1 : IsFloat 53 1 := ⟨1, 0, by norm_num, by norm_num⟩
  have f2 : IsFloat 53 2 := ⟨1, 1, by norm_num, by norm_num⟩
  have f3 : IsFloat 53 (2 ^ (-60 : ℤ)) := ⟨1, -60, by norm_num, by norm_num⟩
  refine ⟨(1, 1), (2, 2), (2 ^ (-60 : ℤ), 2 ^ (-60 : ℤ)), ⟨f1, f1⟩, ⟨f2, f2⟩, ⟨f3, f3⟩, ?_, by norm_num, by norm_num, ?_⟩
  · simp only [orientation]; ring
  · rintro ⟨h, _⟩
    -- `1 - 2 ^ (-60)` is no multiple of `2 ^ (-53)`
    have g := h.grid (k := -1) (by norm_num)
    have g1 : Grid (-1 + 1 - (53 : ℕ)) (1 : ℚ) := by simpa using Grid.pow (e := 0) (f := -1 + 1 - (53 : ℕ)) (by norm_num)
    have := (g1.sub g).eq_zero (by norm_num)
    norm_num at this

example : ∃ a b c : ℚ × ℚ, orientation a b c = 0 ∧ orient2d (rne 53) .ub (initialised 53) a b c = .ub := by
  obtain ⟨a, b, c, ha, hb, hc, h0, hx, hy, hne⟩ := diagonal_case
  exact ⟨a, b, c, h0, C86_collinear_fails (rne_toNearest (by norm_num)) (by norm_num) ha hb hc h0 hx hy hne⟩

/-- The same points, with any number read past the end: the last stage finds that they are on one line. -/
example : ∃ a b c : ℚ × ℚ, orient2d (rne 53) .ub (initialised 53) a b c = .ub ∧ ∀ v, orient2d (rne 53) (.ok v) (initialised 53) a b c = .ok 0 := by
  obtain ⟨a, b, c, ha, hb, hc, h0, hx, hy, hne⟩ := diagonal_case
  refine ⟨a, b, c, C86_collinear_fails (rne_toNearest (by norm_num)) (by norm_num) ha hb hc h0 hx hy hne, fun v => ?_⟩
  obtain ⟨st, h1, h2⟩ := C86_orient2d_padded (p := 53) (rne_toEven (by norm_num)) (by norm_num) (fuel := 60) (by norm_num)
  rw [exactinit_eq (rne_toEven (by norm_num)) (by norm_num) (by norm_num)] at h1
  cases h1
  obtain ⟨r, h3, h4⟩ := h2 a b c ha hb hc v
  rw [h3, h4.eq_zero.2 h0]

/-- Two expansions of the kind `C87_expansion_sum` is about. -/
example : ([1, 4] : List ℚ).Pairwise Below ∧ ([2 ^ 3, 2 ^ 70] : List ℚ).Pairwise Far ∧ ∀ x ∈ ([1, 4, 2 ^ 3, 2 ^ 70] : List ℚ), IsFloat 53 x := by
  refine ⟨?_, ?_, ?_⟩
  · simp only [List.pairwise_cons, List.mem_singleton, forall_eq]
    exact ⟨⟨0, by norm_num, 2, by norm_num⟩, by simp⟩
  · simp only [List.pairwise_cons, List.mem_singleton, forall_eq]
    exact ⟨⟨4, by norm_num [abs_of_pos], 2 ^ 65, by norm_num⟩, by simp⟩
  · simp only [List.mem_cons, List.not_mem_nil, or_false]
    rintro x (rfl | rfl | rfl | rfl)
    · exact ⟨1, 0, by norm_num, by norm_num⟩
    · exact ⟨1, 2, by norm_num, by norm_num⟩
    · exact ⟨1, 3, by norm_num, by norm_num⟩
    · exact ⟨1, 70, by norm_num, by norm_num⟩

/-- The points of `C86_wrong_sign_fails` after `exactinit`: now the sign is right. -/
example : ∃ r, orient2d (rne 53) .ub (initialised 53) (5 * 2 ^ (-55 : ℤ), 3 * 2 ^ (-55 : ℤ)) (3 * 2 ^ (-55 : ℤ), 0) (-1, -1) = .ok r ∧ r < 0 := by
  obtain ⟨st, h1, h2⟩ := C86_orient2d_decides_partial (p := 53) (rne_toEven (by norm_num)) (by norm_num) (fuel := 60) (by norm_num)
  rw [exactinit_eq (rne_toEven (by norm_num)) (by norm_num) (by norm_num)] at h1
  cases h1
  obtain ⟨r, h3, h4⟩ := h2 (5 * 2 ^ (-55 : ℤ), 3 * 2 ^ (-55 : ℤ)) (3 * 2 ^ (-55 : ℤ), 0) (-1, -1)
    ⟨⟨5, -55, by norm_num, by norm_num⟩, ⟨3, -55, by norm_num, by norm_num⟩⟩ ⟨⟨3, -55, by norm_num, by norm_num⟩, .zero⟩
    ⟨⟨-1, 0, by norm_num, by norm_num⟩, ⟨-1, 0, by norm_num, by norm_num⟩⟩
    (Or.inr (by
      have e : orientation ((5 : ℚ) * 2 ^ (-55 : ℤ), (3 : ℚ) * 2 ^ (-55 : ℤ)) ((3 : ℚ) * 2 ^ (-55 : ℤ), 0) (-1, -1) < 0 := by norm_num [orientation]
      rw [abs_of_neg e]; norm_num [orientation, abs_of_pos]))
  exact ⟨r, h3, h4.2.2 (by norm_num [orientation])⟩

end Verif.Props
