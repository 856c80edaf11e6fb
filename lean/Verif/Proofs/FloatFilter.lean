import Mathlib.Tactic.LinearCombination
import Verif.Proofs.FloatApprox
import Verif.Spec.Predicates3
/-
The first stage of `orient3d`, `incircle` and `insphere`.
-/
namespace Verif.Float
open Verif.Pred
variable {p : ℕ} {rnd : ℚ → ℚ}

section
variable (hr : ToEven p rnd) (hp : 1 ≤ p)
include hr hp

local notation "ε" => ((2 : ℚ) ^ (-(p : ℤ)))

theorem eps_nonneg' : (0 : ℚ) ≤ ε := (two_pos' _).le

/-- A product of two differences. -/
theorem approx_prod {X W x w : ℚ} (hx : Approx ε 1 X x |x|) (hw : Approx ε 1 W w |w|) : Approx ε 3 (X * W) (rnd (x * w)) |rnd (x * w)| := by
  have := (hx.mul (two_pos' _).le hw).round hr hp
  rwa [← abs_mul, ← hr.abs hp] at this

theorem approx_minor {X W Y V x w y v : ℚ} (hx : Approx ε 1 X x |x|) (hw : Approx ε 1 W w |w|) (hy : Approx ε 1 Y y |y|)
    (hv : Approx ε 1 V v |v|) : Approx ε 4 (X * W - Y * V) (minor rnd x w y v) (minorPlus rnd x w y v) :=
  ((approx_prod hr hp hx hw).sub (approx_prod hr hp hy hv)).round hr hp

theorem approx_abs {X x : ℚ} (hx : Approx ε 1 X x |x|) : Approx ε 1 |X| |x| |x| :=
  ⟨by rw [abs_abs], (abs_abs_sub_abs_le _ _).trans hx.err⟩

theorem approx_minorPlus {X W Y V x w y v : ℚ} (hx : Approx ε 1 X x |x|) (hw : Approx ε 1 W w |w|) (hy : Approx ε 1 Y y |y|)
    (hv : Approx ε 1 V v |v|) : Approx ε 4 (|X| * |W| + |Y| * |V|) (minorPlus rnd x w y v) (minorPlus rnd x w y v) := by
  have h1 := ((approx_abs hr hp hx).mul (two_pos' _).le (approx_abs hr hp hw)).round hr hp
  have h2 := ((approx_abs hr hp hy).mul (two_pos' _).le (approx_abs hr hp hv)).round hr hp
  rw [← abs_mul x, ← hr.abs hp] at h1
  rw [← abs_mul y, ← hr.abs hp] at h2
  have := (h1.add h2).round hr hp
  exact this

/-- A sum of three products, before the last rounding. -/
theorem approx_sum3 {j k n : ℕ} (hn : j + k + 2 = n) {A B C X Y Z a b c x y z α β γ χ ψ ζ : ℚ} (ha : Approx ε j A a α) (hb : Approx ε j B b β) (hc : Approx ε j C c γ)
    (hx : Approx ε k X x χ) (hy : Approx ε k Y y ψ) (hz : Approx ε k Z z ζ) :
    Approx ε n (A * X + B * Y + C * Z) (rnd (rnd (a * x) + rnd (b * y)) + rnd (c * z))
      (rnd (rnd (α * χ) + rnd (β * ψ)) + rnd (γ * ζ)) := by
  have h0 := (two_pos' (-(p : ℤ))).le
  subst hn
  exact ((((ha.mul h0 hx).round hr hp).add ((hb.mul h0 hy).round hr hp)).round hr hp).add
    (((hc.mul h0 hz).round hr hp).mono h0 (by omega))

theorem approx_diff3 {j k n : ℕ} (hn : j + k + 2 = n) {A B C X Y Z a b c x y z α β γ χ ψ ζ : ℚ} (ha : Approx ε j A a α) (hb : Approx ε j B b β) (hc : Approx ε j C c γ)
    (hx : Approx ε k X x χ) (hy : Approx ε k Y y ψ) (hz : Approx ε k Z z ζ) :
    Approx ε n (A * X - B * Y + C * Z) (rnd (rnd (a * x) - rnd (b * y)) + rnd (c * z))
      (rnd (rnd (α * χ) + rnd (β * ψ)) + rnd (γ * ζ)) := by
  have h0 := (two_pos' (-(p : ℤ))).le
  subst hn
  exact ((((ha.mul h0 hx).round hr hp).sub ((hb.mul h0 hy).round hr hp)).round hr hp).add
    (((hc.mul h0 hz).round hr hp).mono h0 (by omega))

theorem approx_lift2 {X Y x y : ℚ} (hx : Approx ε 1 X x |x|) (hy : Approx ε 1 Y y |y|) :
    Approx ε 4 (X * X + Y * Y) (lift2 rnd x y) (lift2 rnd x y) := by
  have h0 := (two_pos' (-(p : ℤ))).le
  have := (((hx.mul h0 hx).round hr hp).add ((hy.mul h0 hy).round hr hp)).round hr hp
  rwa [abs_mul_abs_self, abs_mul_abs_self] at this

theorem approx_lift3 {X Y Z x y z : ℚ} (hx : Approx ε 1 X x |x|) (hy : Approx ε 1 Y y |y|) (hz : Approx ε 1 Z z |z|) :
    Approx ε 5 (X * X + Y * Y + Z * Z) (lift3 rnd x y z) (lift3 rnd x y z) := by
  have := (approx_sum3 hr hp (n := 4) rfl hx hy hz hx hy hz).round hr hp
  rwa [abs_mul_abs_self, abs_mul_abs_self, abs_mul_abs_self] at this

end

/-- `decideOr`: when the first test decides the sign is right, and it decides when the determinant is not small. -/
theorem decideOr_cases (hr : ToNearest p rnd) (hp : 1 ≤ p) {D x c perm K : ℚ} (h0 : 0 ≤ perm) (hc : 0 ≤ c) (h : |D - x| ≤ K * perm)
    (hK : K ≤ (1 - 2 ^ (-(p : ℤ))) * c) (adapt : ℚ → Res ℚ) :
    (decideOr rnd c perm (rnd x) adapt = .ok (rnd x) ∧ SameSign (rnd x) D ∧ rnd x ≠ 0) ∨
      (decideOr rnd c perm (rnd x) adapt = adapt perm ∧ |D| ≤ (K + (1 + 2 ^ (-(p : ℤ))) ^ 2 * c) * perm) := by
  unfold decideOr
  by_cases hd : rnd x > rnd (c * perm) ∨ -rnd x > rnd (c * perm)
  · refine Or.inl ⟨if_pos hd, sameSign_of_filter hr hp h0 hc h hK hd, fun e => ?_⟩
    have h1 : 0 ≤ rnd (c * perm) := by
      rcases (mul_nonneg hc h0).eq_or_lt with h | h
      · rw [← h, hr.zero]
      · exact ((hr.pos_iff hp).2 h).le
    rw [e] at hd
    rcases hd with hd | hd <;> linarith
  · refine Or.inr ⟨if_neg hd, ?_⟩
    push Not at hd
    have h1 : |rnd x| ≤ rnd (c * perm) := abs_le.2 ⟨by linarith, hd.1⟩
    have h2 := rnd_le hr hp (mul_nonneg hc h0)
    have h3 := hr.rel' hp x
    have h4 := abs_sub (rnd x) (rnd x - x)
    rw [sub_sub_cancel] at h4
    have h5 := abs_add_le (D - x) x
    rw [sub_add_cancel] at h5
    have hε := (two_pos' (-(p : ℤ))).le
    have h6 : |x| ≤ (1 + 2 ^ (-(p : ℤ))) * |rnd x| := by linarith
    have h7 := mul_le_mul_of_nonneg_left (h1.trans h2) (show (0 : ℚ) ≤ 1 + 2 ^ (-(p : ℤ)) by linarith)
    linarith

/-- Powers of a number just above one. -/
theorem pow_le_quad {ε : ℚ} (h0 : 0 ≤ ε) (h1 : ε ≤ 1 / 1024) : ∀ k : ℕ, k ≤ 32 → (1 + ε) ^ k ≤ 1 + k * ε + (k : ℚ) ^ 2 / 2 * ε ^ 2
  | 0, _ => by simp
  | k + 1, hk => by
    have ih := pow_le_quad h0 h1 k (by omega)
    have hk' : (k : ℚ) ≤ 31 := by exact_mod_cast (by omega : k ≤ 31)
    have hk0 : (0 : ℚ) ≤ k := by positivity
    have h2 := mul_le_mul_of_nonneg_right ih (show 0 ≤ 1 + ε by linarith)
    have h3 : (k : ℚ) ^ 2 * ε ≤ 1 := by nlinarith
    have h4 := mul_le_mul_of_nonneg_right h3 (show 0 ≤ ε ^ 2 by positivity)
    rw [pow_succ]
    push_cast
    nlinarith

/-- The sum of absolute values is not much less than what is computed for it. -/
theorem Approx.perm_le {ε P perm : ℚ} {k : ℕ} (h0 : 0 ≤ ε) (h1 : ε ≤ 1 / 1024) (h : Approx ε k P perm perm) (hk : k ≤ 17) : perm ≤ 51 / 50 * P := by
  have h2 := (_root_.abs_le.1 h.err).1
  have h3 := pow_le_quad h0 h1 17 (by omega)
  have h4 := pow_le_pow_right₀ (show 1 ≤ 1 + ε by linarith) hk
  have h5 : (1 + ε) ^ k - 1 ≤ 1 / 52 := by
    have : ε ^ 2 ≤ ε * (1 / 1024) := by rw [sq]; exact mul_le_mul_of_nonneg_left h1 h0
    push_cast at h3
    nlinarith
  have h6 := mul_le_mul_of_nonneg_right h5 h.nonneg
  have := h.nonneg
  linarith

/-! ### `orient3d` -/

section
variable (rnd) in
/-- The determinant and the permanent of `orient3d` from the differences, before their last rounding. -/
def o3dPre (ad bd cd : Pt3) : ℚ × ℚ :=
  (rnd (rnd (ad.2.2 * minor rnd bd.1 cd.2.1 cd.1 bd.2.1) + rnd (bd.2.2 * minor rnd cd.1 ad.2.1 ad.1 cd.2.1)) + rnd (cd.2.2 * minor rnd ad.1 bd.2.1 bd.1 ad.2.1),
   rnd (rnd (minorPlus rnd bd.1 cd.2.1 cd.1 bd.2.1 * |ad.2.2|) + rnd (minorPlus rnd cd.1 ad.2.1 ad.1 cd.2.1 * |bd.2.2|)) + rnd (minorPlus rnd ad.1 bd.2.1 bd.1 ad.2.1 * |cd.2.2|))

theorem orient3d_eq (st : Statics3) (adapt : ℚ → Res ℚ) (a b c d : Pt3) :
    orient3d rnd st adapt a b c d =
      decideOr rnd st.o3dA (rnd (o3dPre rnd (diffs rnd a d) (diffs rnd b d) (diffs rnd c d)).2) (rnd (o3dPre rnd (diffs rnd a d) (diffs rnd b d) (diffs rnd c d)).1) adapt := rfl

theorem o3dPre_approx (hr : ToEven p rnd) (hp : 1 ≤ p) (a b c d : Pt3) :
    Approx (2 ^ (-(p : ℤ))) 7 (orientation3 a b c d) (o3dPre rnd (diffs rnd a d) (diffs rnd b d) (diffs rnd c d)).1
      (o3dPre rnd (diffs rnd a d) (diffs rnd b d) (diffs rnd c d)).2 := by
  have e := fun x => Approx.exact hr hp x
  have h := approx_sum3 hr hp (n := 7) rfl
    (approx_minor hr hp (e (b.1 - d.1)) (e (c.2.1 - d.2.1)) (e (c.1 - d.1)) (e (b.2.1 - d.2.1)))
    (approx_minor hr hp (e (c.1 - d.1)) (e (a.2.1 - d.2.1)) (e (a.1 - d.1)) (e (c.2.1 - d.2.1)))
    (approx_minor hr hp (e (a.1 - d.1)) (e (b.2.1 - d.2.1)) (e (b.1 - d.1)) (e (a.2.1 - d.2.1)))
    (e (a.2.2 - d.2.2)) (e (b.2.2 - d.2.2)) (e (c.2.2 - d.2.2))
  convert h using 1
  · simp only [orientation3]; ring
  · simp only [o3dPre, diffs, mul_comm]
  · rfl

theorem o3dPre_perm (hr : ToEven p rnd) (hp : 1 ≤ p) (a b c d : Pt3) :
    Approx (2 ^ (-(p : ℤ))) 7 (volume3 a b c d) (o3dPre rnd (diffs rnd a d) (diffs rnd b d) (diffs rnd c d)).2
      (o3dPre rnd (diffs rnd a d) (diffs rnd b d) (diffs rnd c d)).2 := by
  have e := fun x => Approx.exact hr hp x
  have h := approx_sum3 hr hp (n := 7) rfl
    (approx_minorPlus hr hp (e (b.1 - d.1)) (e (c.2.1 - d.2.1)) (e (c.1 - d.1)) (e (b.2.1 - d.2.1)))
    (approx_minorPlus hr hp (e (c.1 - d.1)) (e (a.2.1 - d.2.1)) (e (a.1 - d.1)) (e (c.2.1 - d.2.1)))
    (approx_minorPlus hr hp (e (a.1 - d.1)) (e (b.2.1 - d.2.1)) (e (b.1 - d.1)) (e (a.2.1 - d.2.1)))
    (approx_abs hr hp (e (a.2.2 - d.2.2))) (approx_abs hr hp (e (b.2.2 - d.2.2))) (approx_abs hr hp (e (c.2.2 - d.2.2)))
  convert h using 1
  · simp only [volume3]; ring
  · rfl
  · rfl

/-- The values after `exactinit`, for precision `p`. -/
def initialised3 (p : ℕ) : Statics3 :=
  let ε : ℚ := 2 ^ (-(p : ℤ))
  { o3dA := (7 + 56 * ε) * ε
    iccA := (10 + 96 * ε) * ε
    ispA := (16 + 224 * ε) * ε }

/-- The three tests at once: `D` is the determinant, `P` the sum of the absolute values, `x` and `perm` what is computed for
them. -/
theorem test_cases (hr : ToEven p rnd) (hp : 10 ≤ p) {E D x P perm c K B : ℚ} {k : ℕ} (hE : E = 2 ^ (-(p : ℤ))) (hk : k ≤ 17)
    (hperm : Approx E k P perm perm) (herr : |D - x| ≤ K * perm) (hc : 0 ≤ c) (hK : K ≤ (1 - E) * c) (hB : (K + (1 + E) ^ 2 * c) * (51 / 50) ≤ B)
    (hK0 : 0 ≤ K) (adapt : ℚ → Res ℚ) :
    (∃ r, decideOr rnd c perm (rnd x) adapt = .ok r ∧ SameSign r D ∧ r ≠ 0) ∨ ∃ q, decideOr rnd c perm (rnd x) adapt = adapt q ∧ |D| ≤ B * P := by
  have he := eps_le_1024 hp
  have he0 := (two_pos' (-(p : ℤ))).le
  rw [← hE] at he he0
  rcases decideOr_cases hr.toToNearest (by omega) hperm.nonneg hc herr (by rw [← hE]; exact hK) adapt with g | ⟨g1, g2⟩
  · exact Or.inl ⟨_, g⟩
  · refine Or.inr ⟨_, g1, g2.trans ?_⟩
    have h1 := hperm.perm_le he0 he hk
    have h0 := hperm.nonneg
    rw [← hE]
    have h2 := mul_le_mul_of_nonneg_left h1 (show 0 ≤ K + (1 + E) ^ 2 * c by positivity)
    have h3 := mul_le_mul_of_nonneg_right hB (show 0 ≤ P by linarith)
    linarith

theorem orient3d_cases (hr : ToEven p rnd) (hp : 10 ≤ p) (a b c d : Pt3) (adapt : ℚ → Res ℚ) :
    (∃ r, orient3d rnd (initialised3 p) adapt a b c d = .ok r ∧ SameSign r (orientation3 a b c d) ∧ r ≠ 0) ∨
      ∃ perm, orient3d rnd (initialised3 p) adapt a b c d = adapt perm ∧ |orientation3 a b c d| ≤ 15 * 2 ^ (-(p : ℤ)) * volume3 a b c d := by
  have hp1 : 1 ≤ p := by omega
  have h := o3dPre_approx hr hp1 a b c d
  have h' := (o3dPre_perm hr hp1 a b c d).round hr hp1
  have he := eps_le_1024 hp
  have he0 := (two_pos' (-(p : ℤ))).le
  have hs := sum_le hr.toToNearest hp1 h.nonneg
  rw [orient3d_eq]
  simp only [initialised3]
  generalize hE : (2 : ℚ) ^ (-(p : ℤ)) = E at *
  have sq' : E ^ 2 ≤ E * (1 / 1024) := by rw [sq]; exact mul_le_mul_of_nonneg_left he he0
  have sq0 : 0 ≤ E ^ 2 := by positivity
  have cube : E ^ 3 ≤ E ^ 2 * (1 / 1024) := by rw [pow_succ]; exact mul_le_mul_of_nonneg_left he (by positivity)
  refine test_cases hr hp hE.symm (by omega) h' (K := 7 * E + 32 * E ^ 2) ?_ (by positivity) ?_ ?_ (by positivity) adapt
  · have h1 := pow_le_quad he0 he 8 (by omega)
    have h2 := mul_le_mul_of_nonneg_left hs (show 0 ≤ (1 + E) ^ 7 - 1 by linarith [Approx.one_le he0 7])
    have h3 := h.err
    rw [pow_succ] at h1
    push_cast at h1
    have h4 : ((1 + E) ^ 7 - 1) * (1 + E) ≤ 7 * E + 32 * E ^ 2 := by linarith
    have h5 := mul_le_mul_of_nonneg_right h4 h'.nonneg
    linarith
  · linarith
  · have : E ^ 4 ≤ E ^ 3 * (1 / 1024) := by rw [pow_succ]; exact mul_le_mul_of_nonneg_left he (by positivity)
    linarith

/-! ### `incircle` -/

/-- The determinant of `incircle`. -/
def inCircleDet (a b c d : ℚ × ℚ) : ℚ :=
  ((b.1 - d.1) * (c.2 - d.2) - (c.1 - d.1) * (b.2 - d.2)) * ((a.1 - d.1) * (a.1 - d.1) + (a.2 - d.2) * (a.2 - d.2))
  + ((c.1 - d.1) * (a.2 - d.2) - (a.1 - d.1) * (c.2 - d.2)) * ((b.1 - d.1) * (b.1 - d.1) + (b.2 - d.2) * (b.2 - d.2))
  + ((a.1 - d.1) * (b.2 - d.2) - (b.1 - d.1) * (a.2 - d.2)) * ((c.1 - d.1) * (c.1 - d.1) + (c.2 - d.2) * (c.2 - d.2))

theorem inCircleDet_eq {a b c d o : ℚ × ℚ} {r : ℚ} (ha : dist2 o a = r) (hb : dist2 o b = r) (hc : dist2 o c = r) :
    inCircleDet a b c d = orientation a b c * (r - dist2 o d) := by
  simp only [dist2, orientation, inCircleDet] at *
  linear_combination ((b.1 - d.1) * (c.2 - d.2) - (c.1 - d.1) * (b.2 - d.2)) * ha
    + ((c.1 - d.1) * (a.2 - d.2) - (a.1 - d.1) * (c.2 - d.2)) * hb + ((a.1 - d.1) * (b.2 - d.2) - (b.1 - d.1) * (a.2 - d.2)) * hc

theorem incircle_cases (hr : ToEven p rnd) (hp : 10 ≤ p) (a b c d : ℚ × ℚ) (adapt : ℚ → Res ℚ) :
    (∃ r, incircle rnd (initialised3 p) adapt a b c d = .ok r ∧ SameSign r (inCircleDet a b c d) ∧ r ≠ 0) ∨
      ∃ perm, incircle rnd (initialised3 p) adapt a b c d = adapt perm ∧ |inCircleDet a b c d| ≤ 21 * 2 ^ (-(p : ℤ)) * size2 a b c d := by
  have hp1 : 1 ≤ p := by omega
  have e := fun x => Approx.exact hr hp1 x
  have h := approx_sum3 hr hp1 (n := 10) rfl
    (approx_minor hr hp1 (e (b.1 - d.1)) (e (c.2 - d.2)) (e (c.1 - d.1)) (e (b.2 - d.2)))
    (approx_minor hr hp1 (e (c.1 - d.1)) (e (a.2 - d.2)) (e (a.1 - d.1)) (e (c.2 - d.2)))
    (approx_minor hr hp1 (e (a.1 - d.1)) (e (b.2 - d.2)) (e (b.1 - d.1)) (e (a.2 - d.2)))
    (approx_lift2 hr hp1 (e (a.1 - d.1)) (e (a.2 - d.2))) (approx_lift2 hr hp1 (e (b.1 - d.1)) (e (b.2 - d.2)))
    (approx_lift2 hr hp1 (e (c.1 - d.1)) (e (c.2 - d.2)))
  have h' := (approx_sum3 hr hp1 (n := 10) rfl
    (approx_minorPlus hr hp1 (e (b.1 - d.1)) (e (c.2 - d.2)) (e (c.1 - d.1)) (e (b.2 - d.2)))
    (approx_minorPlus hr hp1 (e (c.1 - d.1)) (e (a.2 - d.2)) (e (a.1 - d.1)) (e (c.2 - d.2)))
    (approx_minorPlus hr hp1 (e (a.1 - d.1)) (e (b.2 - d.2)) (e (b.1 - d.1)) (e (a.2 - d.2)))
    (approx_lift2 hr hp1 (e (a.1 - d.1)) (e (a.2 - d.2))) (approx_lift2 hr hp1 (e (b.1 - d.1)) (e (b.2 - d.2)))
    (approx_lift2 hr hp1 (e (c.1 - d.1)) (e (c.2 - d.2)))).round hr hp1
  have hs := sum_le hr.toToNearest hp1 h.nonneg
  rw [show incircle rnd (initialised3 p) adapt a b c d = decideOr rnd (initialised3 p).iccA _ _ adapt from rfl]
  simp only [sum3, mul_comm (lift2 rnd _ _) (minor rnd _ _ _ _)]
  have he := eps_le_1024 hp
  have he0 := (two_pos' (-(p : ℤ))).le
  simp only [initialised3]
  generalize hE : (2 : ℚ) ^ (-(p : ℤ)) = E at *
  have sq' : E ^ 2 ≤ E * (1 / 1024) := by rw [sq]; exact mul_le_mul_of_nonneg_left he he0
  have sq0 : 0 ≤ E ^ 2 := by positivity
  have cube : E ^ 3 ≤ E ^ 2 * (1 / 1024) := by rw [pow_succ]; exact mul_le_mul_of_nonneg_left he (by positivity)
  refine test_cases hr hp hE.symm (k := 10 + 1) (by omega) (h'.congr ?_) (K := 10 * E + 121 / 2 * E ^ 2) ?_ (by positivity) ?_ ?_ (by positivity) adapt
  · simp only [size2, dist2]; ring
  · have h1 := pow_le_quad he0 he 11 (by omega)
    have h2 := mul_le_mul_of_nonneg_left hs (show 0 ≤ (1 + E) ^ 10 - 1 by linarith [Approx.one_le he0 10])
    have h3 := h.err
    rw [pow_succ] at h1
    push_cast at h1
    have h4 : ((1 + E) ^ 10 - 1) * (1 + E) ≤ 10 * E + 121 / 2 * E ^ 2 := by linarith
    have h5 := mul_le_mul_of_nonneg_right h4 h'.nonneg
    exact h3.trans (h2.trans (by linarith))
  · linarith
  · have : E ^ 4 ≤ E ^ 3 * (1 / 1024) := by rw [pow_succ]; exact mul_le_mul_of_nonneg_left he (by positivity)
    linarith

/-! ### `insphere` -/

/-- A distance times a volume. -/
theorem approx_term (hr : ToEven p rnd) (hp : 1 ≤ p) {j k n : ℕ} (hn : j + k + 1 = n) {L X l x χ : ℚ} (hl : Approx (2 ^ (-(p : ℤ))) j L l l) (hx : Approx (2 ^ (-(p : ℤ))) k X x χ) :
    Approx (2 ^ (-(p : ℤ))) n (L * X) (rnd (l * x)) (rnd (χ * l)) := by
  subst hn
  have := (hl.mul (two_pos' _).le hx).round hr hp
  rwa [mul_comm l χ] at this

theorem minorPlus_comm (x w y v : ℚ) : minorPlus rnd x w y v = minorPlus rnd y v x w := by
  rw [minorPlus, minorPlus, add_comm]

section
variable (rnd) in
/-- The four terms of the permanent of `insphere`, in the order `a`, `b`, `c`, `d`. -/
def ispTerm (u v w t : Pt3) : ℚ :=
  rnd (sum3 rnd (minorPlus rnd v.1 w.2.1 w.1 v.2.1) |u.2.2| (minorPlus rnd w.1 u.2.1 u.1 w.2.1) |v.2.2| (minorPlus rnd u.1 v.2.1 v.1 u.2.1) |w.2.2|
    * lift3 rnd t.1 t.2.1 t.2.2)
end

theorem inspherePerm_eq (a b c d : Pt3) : inspherePerm rnd a b c d =
    rnd (rnd (rnd (ispTerm rnd b c d a + ispTerm rnd c d a b) + ispTerm rnd d a b c) + ispTerm rnd a b c d) := by
  obtain ⟨a1, a2, a3⟩ := a
  obtain ⟨b1, b2, b3⟩ := b
  obtain ⟨c1, c2, c3⟩ := c
  obtain ⟨d1, d2, d3⟩ := d
  simp only [inspherePerm, ispTerm, minorPlus_comm c1 a2 a1 c2]

/-- The volume of three of the differences, and the square of the distance for the fourth. -/
theorem ispTerm_perm (hr : ToEven p rnd) (hp : 1 ≤ p) (a b c d e : Pt3) :
    Approx (2 ^ (-(p : ℤ))) 14 (dist3 d e * volume3 a b c e) (ispTerm rnd (diffs rnd a e) (diffs rnd b e) (diffs rnd c e) (diffs rnd d e))
      (ispTerm rnd (diffs rnd a e) (diffs rnd b e) (diffs rnd c e) (diffs rnd d e)) := by
  have x := fun x => Approx.exact hr hp x
  have h := approx_term hr hp (n := 14) rfl (approx_lift3 hr hp (x (d.1 - e.1)) (x (d.2.1 - e.2.1)) (x (d.2.2 - e.2.2))) ((approx_sum3 hr hp (n := 7) rfl
    (approx_minorPlus hr hp (x (b.1 - e.1)) (x (c.2.1 - e.2.1)) (x (c.1 - e.1)) (x (b.2.1 - e.2.1)))
    (approx_minorPlus hr hp (x (c.1 - e.1)) (x (a.2.1 - e.2.1)) (x (a.1 - e.1)) (x (c.2.1 - e.2.1)))
    (approx_minorPlus hr hp (x (a.1 - e.1)) (x (b.2.1 - e.2.1)) (x (b.1 - e.1)) (x (a.2.1 - e.2.1)))
    (approx_abs hr hp (x (a.2.2 - e.2.2))) (approx_abs hr hp (x (b.2.2 - e.2.2))) (approx_abs hr hp (x (c.2.2 - e.2.2)))).round hr hp)
  convert h using 1
  · simp only [dist3, volume3]; ring
  · rw [mul_comm]; rfl
  · rfl

variable (rnd) in
/-- A term of the determinant of `insphere` that is computed as a sum. -/
def ispSum (u v w t : Pt3) : ℚ :=
  rnd (lift3 rnd t.1 t.2.1 t.2.2 *
    sum3 rnd u.2.2 (minor rnd v.1 w.2.1 w.1 v.2.1) v.2.2 (minor rnd w.1 u.2.1 u.1 w.2.1) w.2.2 (minor rnd u.1 v.2.1 v.1 u.2.1))

variable (rnd) in
/-- A term of the determinant of `insphere` that is computed with a difference. -/
def ispDiff (u v w t : Pt3) : ℚ :=
  rnd (lift3 rnd t.1 t.2.1 t.2.2 *
    diff3 rnd u.2.2 (minor rnd v.1 w.2.1 w.1 v.2.1) v.2.2 (minor rnd u.1 w.2.1 w.1 u.2.1) w.2.2 (minor rnd u.1 v.2.1 v.1 u.2.1))

theorem insphereDet_eq (a b c d : Pt3) : insphereDet rnd a b c d =
    rnd (rnd (ispDiff rnd a b c d - ispSum rnd d a b c) + rnd (ispSum rnd c d a b - ispDiff rnd b c d a)) := by
  obtain ⟨a1, a2, a3⟩ := a
  obtain ⟨b1, b2, b3⟩ := b
  obtain ⟨c1, c2, c3⟩ := c
  obtain ⟨d1, d2, d3⟩ := d
  rfl

theorem ispSum_approx (hr : ToEven p rnd) (hp : 1 ≤ p) (a b c d e : Pt3) :
    Approx (2 ^ (-(p : ℤ))) 14 (dist3 d e * orientation3 a b c e) (ispSum rnd (diffs rnd a e) (diffs rnd b e) (diffs rnd c e) (diffs rnd d e))
      (ispTerm rnd (diffs rnd a e) (diffs rnd b e) (diffs rnd c e) (diffs rnd d e)) := by
  have x := fun x => Approx.exact hr hp x
  have h := approx_term hr hp (n := 14) rfl (approx_lift3 hr hp (x (d.1 - e.1)) (x (d.2.1 - e.2.1)) (x (d.2.2 - e.2.2))) ((approx_sum3 hr hp (n := 7) rfl
    (approx_minor hr hp (x (b.1 - e.1)) (x (c.2.1 - e.2.1)) (x (c.1 - e.1)) (x (b.2.1 - e.2.1)))
    (approx_minor hr hp (x (c.1 - e.1)) (x (a.2.1 - e.2.1)) (x (a.1 - e.1)) (x (c.2.1 - e.2.1)))
    (approx_minor hr hp (x (a.1 - e.1)) (x (b.2.1 - e.2.1)) (x (b.1 - e.1)) (x (a.2.1 - e.2.1)))
    (x (a.2.2 - e.2.2)) (x (b.2.2 - e.2.2)) (x (c.2.2 - e.2.2))).round hr hp)
  convert h using 1
  · simp only [dist3, orientation3]; ring
  · simp only [ispSum, sum3, diffs, mul_comm (minor rnd _ _ _ _)]
  · rfl

theorem ispDiff_approx (hr : ToEven p rnd) (hp : 1 ≤ p) (a b c d e : Pt3) :
    Approx (2 ^ (-(p : ℤ))) 14 (dist3 d e * orientation3 a b c e) (ispDiff rnd (diffs rnd a e) (diffs rnd b e) (diffs rnd c e) (diffs rnd d e))
      (ispTerm rnd (diffs rnd a e) (diffs rnd b e) (diffs rnd c e) (diffs rnd d e)) := by
  have x := fun x => Approx.exact hr hp x
  have h := approx_term hr hp (n := 14) rfl (approx_lift3 hr hp (x (d.1 - e.1)) (x (d.2.1 - e.2.1)) (x (d.2.2 - e.2.2))) ((approx_diff3 hr hp (n := 7) rfl
    (approx_minor hr hp (x (b.1 - e.1)) (x (c.2.1 - e.2.1)) (x (c.1 - e.1)) (x (b.2.1 - e.2.1)))
    (approx_minor hr hp (x (a.1 - e.1)) (x (c.2.1 - e.2.1)) (x (c.1 - e.1)) (x (a.2.1 - e.2.1)))
    (approx_minor hr hp (x (a.1 - e.1)) (x (b.2.1 - e.2.1)) (x (b.1 - e.1)) (x (a.2.1 - e.2.1)))
    (x (a.2.2 - e.2.2)) (x (b.2.2 - e.2.2)) (x (c.2.2 - e.2.2))).round hr hp)
  convert h using 1
  · simp only [dist3, orientation3]; ring
  · simp only [ispDiff, diff3, diffs, mul_comm (minor rnd _ _ _ _)]
  · simp only [ispTerm, sum3, diffs, minorPlus_comm (rnd (c.1 - e.1)) (rnd (a.2.1 - e.2.1))]

/-- The determinant of `insphere`. -/
def inSphereDet (a b c d e : Point3) : ℚ :=
  (dist3 d e * orientation3 a b c e - dist3 c e * orientation3 d a b e) + (dist3 b e * orientation3 c d a e - dist3 a e * orientation3 b c d e)

theorem inSphereDet_eq {a b c d e o : Point3} {r : ℚ} (ha : dist3 o a = r) (hb : dist3 o b = r) (hc : dist3 o c = r) (hd : dist3 o d = r) :
    inSphereDet a b c d e = orientation3 a b c d * (r - dist3 o e) := by
  have e1 : ∀ x, dist3 o x = r → dist3 x e = r - dist3 o e + 2 * ((x.1 - e.1) * (o.1 - e.1) + (x.2.1 - e.2.1) * (o.2.1 - e.2.1) + (x.2.2 - e.2.2) * (o.2.2 - e.2.2)) := by
    rintro x rfl
    simp only [dist3]; ring
  rw [inSphereDet, e1 a ha, e1 b hb, e1 c hc, e1 d hd]
  generalize r - dist3 o e = w
  simp only [orientation3]
  ring

theorem insphere_cases (hr : ToEven p rnd) (hp : 10 ≤ p) (a b c d e : Pt3) (adapt : ℚ → Res ℚ) :
    (∃ r, insphere rnd (initialised3 p) adapt a b c d e = .ok r ∧ SameSign r (inSphereDet a b c d e) ∧ r ≠ 0) ∨
      ∃ perm, insphere rnd (initialised3 p) adapt a b c d e = adapt perm ∧ |inSphereDet a b c d e| ≤ 34 * 2 ^ (-(p : ℤ)) * size3 a b c d e := by
  have hp1 : 1 ≤ p := by omega
  have Ta := ispDiff_approx hr hp1 b c d a e
  have Tb := ispSum_approx hr hp1 c d a b e
  have Tc := ispSum_approx hr hp1 d a b c e
  have Td := ispDiff_approx hr hp1 a b c d e
  have Pa := ispTerm_perm hr hp1 b c d a e
  have Pb := ispTerm_perm hr hp1 c d a b e
  have Pc := ispTerm_perm hr hp1 d a b c e
  have Pd := ispTerm_perm hr hp1 a b c d e
  rw [show insphere rnd (initialised3 p) adapt a b c d e = decideOr rnd (initialised3 p).ispA
    (inspherePerm rnd (diffs rnd a e) (diffs rnd b e) (diffs rnd c e) (diffs rnd d e))
    (insphereDet rnd (diffs rnd a e) (diffs rnd b e) (diffs rnd c e) (diffs rnd d e)) adapt from rfl, inspherePerm_eq, insphereDet_eq]
  generalize ispTerm rnd (diffs rnd b e) (diffs rnd c e) (diffs rnd d e) (diffs rnd a e) = ta at *
  generalize ispTerm rnd (diffs rnd c e) (diffs rnd d e) (diffs rnd a e) (diffs rnd b e) = tb at *
  generalize ispTerm rnd (diffs rnd d e) (diffs rnd a e) (diffs rnd b e) (diffs rnd c e) = tc at *
  generalize ispTerm rnd (diffs rnd a e) (diffs rnd b e) (diffs rnd c e) (diffs rnd d e) = td at *
  have he := eps_le_1024 hp
  have he0 := (two_pos' (-(p : ℤ))).le
  have h := ((Td.sub Tc).round hr hp1).add ((Tb.sub Ta).round hr hp1)
  have h1 := (Pa.add Pb).round hr hp1
  have h2 := (h1.add (Pc.mono he0 (by omega))).round hr hp1
  have h3 := (h2.add (Pd.mono he0 (by omega))).round hr hp1
  have s0 := rnd_le hr.toToNearest hp1 (add_nonneg Pd.nonneg Pc.nonneg)
  have s2 := sum_le hr.toToNearest hp1 (add_nonneg h1.nonneg Pc.nonneg)
  have s3 := sum_le hr.toToNearest hp1 (add_nonneg h2.nonneg Pd.nonneg)
  have n1 := h1.nonneg
  have n2 := h2.nonneg
  have n3 := h3.nonneg
  have nd := Pd.nonneg
  have nc := Pc.nonneg
  simp only [initialised3]
  generalize hE : (2 : ℚ) ^ (-(p : ℤ)) = E at *
  have sq' : E ^ 2 ≤ E * (1 / 1024) := by rw [sq]; exact mul_le_mul_of_nonneg_left he he0
  have sq0 : 0 ≤ E ^ 2 := by positivity
  have cube : E ^ 3 ≤ E ^ 2 * (1 / 1024) := by rw [pow_succ]; exact mul_le_mul_of_nonneg_left he (by positivity)
  have hsum : rnd (td + tc) + rnd (tb + ta) ≤ (1 + E) ^ 3 * rnd (rnd (rnd (ta + tb) + tc) + td) := by
    rw [add_comm tb ta]
    generalize rnd (rnd (rnd (ta + tb) + tc) + td) = q3 at *
    generalize rnd (rnd (ta + tb) + tc) = q2 at *
    generalize rnd (ta + tb) = q1 at *
    have m1 : (1 + E) * (q2 + td) ≤ (1 + E) * ((1 + E) * q3) := mul_le_mul_of_nonneg_left s3 (by linarith)
    have m2 : (1 + E) * (q1 + tc) ≤ (1 + E) * ((1 + E) * q2) := mul_le_mul_of_nonneg_left s2 (by linarith)
    have m3 : (1 + E) * ((1 + E) * (q2 + td)) ≤ (1 + E) * ((1 + E) * ((1 + E) * q3)) := mul_le_mul_of_nonneg_left m1 (by linarith)
    have m4 : 0 ≤ E * q1 := mul_nonneg he0 n1
    have m5 : 0 ≤ E * ((1 + E) * td) := by positivity
    nlinarith
  refine test_cases hr hp hE.symm (k := 14 + 1 + 1 + 1) (by omega) (h3.congr ?_) (K := 15 * E + 162 * E ^ 2) (h.err.trans ?_) (by positivity) ?_ ?_ (by positivity) adapt
  · simp only [size3]
  · have g1 := pow_le_quad he0 he 18 (by omega)
    have g2 := mul_le_mul_of_nonneg_left hsum (show 0 ≤ (1 + E) ^ 15 - 1 by linarith [Approx.one_le he0 15])
    rw [show (1 + E) ^ 18 = (1 + E) ^ 15 * (1 + E) ^ 3 by ring] at g1
    push_cast at g1
    have g3 : 1 + 3 * E ≤ (1 + E) ^ 3 := by have := pow_nonneg he0 3; linarith
    have g4 : ((1 + E) ^ 15 - 1) * (1 + E) ^ 3 ≤ 15 * E + 162 * E ^ 2 := by linarith
    have g5 := mul_le_mul_of_nonneg_right g4 n3
    exact g2.trans (by linarith)
  · linarith
  · have : E ^ 4 ≤ E ^ 3 * (1 / 1024) := by rw [pow_succ]; exact mul_le_mul_of_nonneg_left he (by positivity)
    linarith

end

end Verif.Float
